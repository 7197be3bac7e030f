import Verif.Proofs.MatmulDispatch
import Mathlib.Algebra.BigOperators.Ring.List
import Mathlib.Algebra.BigOperators.Fin
import Mathlib.Algebra.Field.Basic
import Mathlib.Data.List.Sort
import Mathlib.Algebra.Order.BigOperators.Group.List

/-! `mean` and `variance` over axes. -/

namespace SmartDNN
open Spec

/-! ### Removing several axes one by one -/

/-- Entries at positions (counted from `k`) where `P` is false. -/
def offP {α : Type _} (P : Nat → Bool) : Nat → List α → List α
  | _, [] => []
  | k, x :: xs => if P k then offP P (k + 1) xs else x :: offP P (k + 1) xs

theorem offP_eq_offM {α : Type _} (P : Nat → Bool) (k : Nat) (l : List α) :
    offP P k l = offM ((List.range' k l.length).map P) l := by
  induction l generalizing k with
  | nil => rfl
  | cons x xs ih => simp only [offP, List.length_cons, List.range'_succ, List.map_cons, offM, ih]

theorem off_eq_offP {α : Type} (axes : List Nat) (l : List α) :
    off axes l = offP (fun i => decide (i ∈ axes)) 0 l := by
  rw [off_eq_offM, offP_eq_offM, marks, List.range_eq_range']

theorem offP_none {α : Type _} {P : Nat → Bool} {k : Nat} (h : ∀ j ≥ k, P j = false) (l : List α) :
    offP P k l = l := by
  induction l generalizing k with
  | nil => rfl
  | cons x xs ih =>
    simp only [offP, h k le_rfl, Bool.false_eq_true, if_false]
    rw [ih (fun j hj => h j (by omega))]

theorem offP_erase {α : Type _} {P Q : Nat → Bool} {a k : Nat} (hk : k ≤ a) (ha : P a = true)
    (h1 : ∀ j < a, Q j = P j) (h2 : ∀ j ≥ a, Q j = false) (h3 : ∀ j > a, P j = false) (l : List α) :
    offP P k l = offP Q k (l.eraseIdx (a - k)) := by
  induction l generalizing k with
  | nil => rfl
  | cons x xs ih =>
    rcases Nat.eq_or_lt_of_le hk with rfl | hlt
    · simp only [offP, ha, if_true, Nat.sub_self, List.eraseIdx_cons_zero]
      rw [offP_none (fun j hj => h3 j (by omega)), offP_none (fun j hj => h2 j hj)]
    · obtain ⟨m, hm⟩ : ∃ m, a - k = m + 1 := ⟨a - k - 1, by omega⟩
      rw [hm, List.eraseIdx_cons_succ]
      have := ih (k := k + 1) hlt
      rw [show a - (k + 1) = m by omega] at this
      simp only [offP, h1 k hlt, this]

theorem off_cons_erase {α : Type} {a : Nat} {rest : List Nat} (h : ∀ b ∈ rest, b < a) (l : List α) :
    off (a :: rest) l = off rest (l.eraseIdx a) := by
  rw [off_eq_offP, off_eq_offP, offP_erase (a := a) (Q := fun i => decide (i ∈ rest)) (Nat.zero_le _) (by simp)]
  · simp
  · intro j hj
    simp [Nat.ne_of_lt hj]
  · intro j hj
    have : j ∉ rest := fun hm => by have := h j hm; omega
    simp [this]
  · intro j hj
    have : j ∉ rest := fun hm => by have := h j hm; omega
    simp [this]; omega

theorem off_congr {α : Type} {a b : List Nat} (h : ∀ i, i ∈ a ↔ i ∈ b) (l : List α) : off a l = off b l := by
  unfold off; simp only [h]

theorem keepDims_congr {a b : List Nat} (h : ∀ i, i ∈ a ↔ i ∈ b) (ds : List Nat) :
    keepDims a ds = keepDims b ds := by
  unfold keepDims; simp only [h]

theorem off_nil {α : Type} (l : List α) : off [] l = l := by
  rw [off_eq_offP, offP_none (by simp)]

/-! ### Iterated sums in a commutative monoid -/

section
variable {T : Type}

theorem lsum_eq_sum [AddCommMonoid T] (l : List T) : lsum l = l.sum := by
  unfold lsum
  have := foldl_add_sum l (fun x => x) (0 : T)
  simpa using this

theorem sum_ite_eq_mem [AddCommMonoid T] {α : Type _} [DecidableEq α] {M : List α} (hM : M.Nodup)
    (P : α → Bool) (e : α) (v : T) :
    ((M.filter P).map (fun i => if e = i then v else 0)).sum = if e ∈ M ∧ P e then v else 0 := by
  induction M with
  | nil => simp
  | cons a M ih =>
    have hn := List.nodup_cons.1 hM
    have := ih hn.2
    by_cases hP : P a = true
    · rw [List.filter_cons_of_pos hP, List.map_cons, List.sum_cons, this]
      by_cases hea : e = a
      · subst hea
        simp [hn.1, hP]
      · simp [hea]
    · rw [List.filter_cons_of_neg hP, this]
      by_cases hea : e = a
      · subst hea
        simp [hP]
      · simp [hea]

theorem sum_filter_map [AddCommMonoid T] {α : Type _} (L : List α) (p : α → Bool) (f : α → T) :
    ((L.filter p).map f).sum = (L.map (fun x => if p x then f x else 0)).sum := by
  induction L with
  | nil => rfl
  | cons a L ih =>
    by_cases h : p a = true
    · rw [List.filter_cons_of_pos h]; simp [h, ih]
    · rw [List.filter_cons_of_neg h]; simp [h, ih]

theorem sum_comm' [AddCommMonoid T] {α β : Type _} (L : List α) (M : List β) (f : α → β → T) :
    (L.map (fun x => (M.map (fun y => f x y)).sum)).sum = (M.map (fun y => (L.map (fun x => f x y)).sum)).sum := by
  induction L with
  | nil => simp
  | cons a L ih => simp [ih]

/-- Summing the fibre sums of `E` over the indices selected by `P` is summing over the elements whose
image is selected. -/
theorem sum_fibres [AddCommMonoid T] {α β : Type _} [DecidableEq β] {M : List β} (hM : M.Nodup) (L : List α)
    (E : α → β) (hE : ∀ x ∈ L, E x ∈ M) (P : β → Bool) (f : α → T) :
    ((M.filter P).map (fun i => ((L.filter (fun x => decide (E x = i))).map f).sum)).sum =
      ((L.filter (fun x => P (E x))).map f).sum := by
  simp only [sum_filter_map L]
  rw [sum_comm']
  apply congrArg
  apply List.map_congr_left
  intro x hx
  simp only [decide_eq_true_eq]
  rw [sum_ite_eq_mem hM]
  simp [hE x hx]

theorem sumAxis_fold [AddCommMonoid T] {axes ds : List Nat} (hd : Dims ds) (hs : axes.Pairwise (· > ·))
    (hr : ∀ a ∈ axes, a < ds.length) (hne : off axes ds ≠ []) (f : List Nat → T) :
    axes.foldlM (fun (result : Tensor T) axis =>
      if axis ≥ result.shape.rank then Except.error Err.invalidArgument
      else result.sumAxis axis) (ofFn ds f) =
    .ok (ofFn (off axes ds) (fun j => (((indices ds).filter (fun i => decide (off axes i = j))).map f).sum)) := by
  induction axes generalizing ds f with
  | nil =>
    simp only [List.foldlM_nil, Except.pure_eq']
    congr 1
    rw [off_nil]
    apply ofFn_congr
    intro idx hv
    simp only [off_nil]
    rw [filter_eq_of_nodup (nodup_indices ds) (mem_indices.2 hv)]
    simp
  | cons a rest ih =>
    have hlt : ∀ b ∈ rest, b < a := (List.pairwise_cons.1 hs).1
    have ha : a < ds.length := hr a (by simp)
    rw [off_cons_erase hlt] at hne
    have h2 : 1 < ds.length := by
      by_contra hc
      have : ds.length = 1 := by omega
      obtain ⟨d, rfl⟩ := List.length_eq_one_iff.1 this
      have : a = 0 := by simpa using ha
      subst this
      simp [off] at hne
    rw [List.foldlM_cons, ofFn_shape, shapeOf_rank, if_neg (by omega), sumAxis_scatter hd ha h2]
    simp only [Except.bind_ok']
    rw [ih (dims_eraseIdx hd h2) (List.pairwise_cons.1 hs).2 ?_ hne, off_cons_erase hlt]
    · congr 1
      apply ofFn_congr
      intro j _
      simp only [lsum_eq_sum]
      rw [sum_fibres (nodup_indices _) (indices ds) (fun x => x.eraseIdx a)
        (fun x hx => mem_indices.2 (validIdx_eraseIdx (mem_indices.1 hx) a))]
      simp only [off_cons_erase hlt]
    · intro b hb
      have := hlt b hb
      rw [List.length_eraseIdx]
      split_ifs <;> omega

end

/-! ### Sorted axes, kept dimensions, counts -/

theorem axes_sorted {axes : List Nat} (h : axes.Nodup) :
    (axes.mergeSort (fun a b => decide (a ≥ b))).Pairwise (· > ·) := by
  have h1 : (axes.mergeSort (fun a b => decide (a ≥ b))).Pairwise (fun a b => decide (a ≥ b) = true) :=
    List.pairwise_mergeSort (fun a b c => by simp; omega) (fun a b => by simp; omega) axes
  have h2 : (axes.mergeSort (fun a b => decide (a ≥ b))).Nodup := (List.mergeSort_perm axes _).nodup_iff.2 h
  refine (List.Pairwise.and h1 h2).imp ?_
  rintro a b ⟨h3, h4⟩
  simp at h3
  omega

theorem mem_axes_sorted {axes : List Nat} (i : Nat) :
    i ∈ axes.mergeSort (fun a b => decide (a ≥ b)) ↔ i ∈ axes :=
  (List.mergeSort_perm axes _).mem_iff

theorem off_ne_nil {axes ds : List Nat} (h : axes.length < ds.length) : off axes ds ≠ [] := by
  intro he
  have h1 : ∀ i < ds.length, i ∈ axes := by
    intro i hi
    by_contra hn
    have : ds[i] ∈ off axes ds := by
      unfold off
      rw [List.mem_map]
      refine ⟨(ds[i], i), ?_, rfl⟩
      rw [List.mem_filter]
      refine ⟨?_, by simpa using hn⟩
      rw [List.mem_zipIdx_iff_getElem?]
      simp
    rw [he] at this
    cases this
  have h2 : (List.range ds.length).Subperm axes :=
    List.subperm_of_subset List.nodup_range (fun i hi => h1 i (by simpa using hi))
  have := h2.length_le
  simp at this
  omega

theorem foldl_mul_prod (l : List Nat) (p : Nat → Prop) [DecidablePred p] (v : Nat → Nat) (n : Nat) :
    l.foldl (fun (n : Int) i => if p i then n * (v i : Int) else n) (n : Int) =
      ((n * (l.map (fun i => if p i then v i else 1)).prod : Nat) : Int) := by
  induction l generalizing n with
  | nil => simp
  | cons a l ih =>
    rw [List.foldl_cons]
    by_cases h : p a
    · rw [if_pos h, show (n : Int) * (v a : Int) = ((n * v a : Nat) : Int) by push_cast; rfl, ih]
      simp [h, mul_assoc]
    · rw [if_neg h, ih]; simp [h]

theorem mapIdx_eq_range {α β : Type} (l : List α) (g : Nat → α → β) (d : α) :
    l.mapIdx g = (List.range l.length).map (fun i => g i (l.getD i d)) := by
  apply List.ext_getElem
  · simp
  · intro i h1 h2
    have hi : i < l.length := by simpa using h1
    simp [List.getElem?_eq_getElem hi]

theorem getD_ints (ds : List Nat) (i : Nat) : (ints ds).getD i 1 = ((ds.getD i 1 : Nat) : Int) := by
  rw [List.getD_eq_getElem?_getD, ints_getElem?, List.getD_eq_getElem?_getD]
  cases ds[i]? <;> rfl

theorem meanShape_ints (ds axes : List Nat) :
    Tensor.meanShape (ints ds) axes = (ints (keepDims axes ds), (axesCount axes ds : Int)) := by
  unfold Tensor.meanShape
  simp only [getD_ints, ints_length]
  congr 1
  · unfold keepDims
    rw [mapIdx_eq_range ds _ 1]
    unfold ints
    rw [List.map_map]
    apply List.map_congr_left
    intro i _
    simp only [Function.comp]
    split_ifs <;> simp
  · have := foldl_mul_prod (List.range ds.length) (· ∈ axes) (fun i => ds.getD i 1) 1
    simp only [Nat.cast_one, one_mul] at this
    rw [this]
    unfold axesCount
    rw [mapIdx_eq_range ds _ 1]

theorem axesCount_pos {axes ds : List Nat} (hp : ∀ d ∈ ds, 0 < d) : 0 < axesCount axes ds := by
  unfold axesCount
  apply prod_pos_of
  intro d hd
  obtain ⟨i, hi, rfl⟩ := List.mem_mapIdx.1 hd
  split_ifs
  · exact hp _ (List.getElem_mem _)
  · exact one_pos

theorem axes_prod {axes ds : List Nat} (hn : axes.Nodup) (hr : ∀ a ∈ axes, a < ds.length) :
    (axes.map (fun a => ds.getD a 1)).prod = axesCount axes ds := by
  unfold axesCount
  rw [mapIdx_eq_range ds _ 1]
  have h1 : ((List.range ds.length).map (fun i => if i ∈ axes then ds.getD i 1 else 1)).prod =
      ∏ i ∈ Finset.range ds.length, (if i ∈ axes then ds.getD i 1 else 1) :=
    by rw [← List.prod_toFinset _ List.nodup_range, List.toFinset_range]
  rw [h1, ← List.prod_toFinset _ hn]
  symm
  have h2 : ∀ i, (if i ∈ axes then ds.getD i 1 else 1) = (if i ∈ axes.toFinset then ds.getD i 1 else 1) := by
    intro i; simp
  simp only [h2]
  rw [Finset.prod_ite_mem, Finset.inter_eq_right.2]
  intro a ha
  simpa using hr a (by simpa using ha)

/-! ### `mean` -/

section
variable {T : Type}

theorem reinterpret_off {ds : List Nat} (axes : List Nat) (g : List Nat → T) :
    (⟨shapeOf (keepDims axes ds), (indices (off axes ds)).map g⟩ : Tensor T) =
      ofFn (keepDims axes ds) (fun idx => g (off axes idx)) := by
  have hml : (marks axes ds.length).length = ds.length := by simp [marks]
  unfold ofFn
  congr 1
  have hidx := indices_keepM hml
  rw [← keepDims_eq_keepM, ← off_eq_offM] at hidx
  rw [← hidx, List.map_map]
  apply List.map_congr_left
  intro r hr
  have hl := (mem_indices.1 hr).length
  simp only [Function.comp]
  rw [off_eq_offM axes r, hl]
  simp [keepDims]

theorem off_prod (axes ds : List Nat) : (keepDims axes ds).prod = (off axes ds).prod := by
  have hml : (marks axes ds.length).length = ds.length := by simp [marks]
  rw [off_eq_offM, keepDims_eq_keepM, prod_offM hml]

theorem mulScalar_ofFn [Mul T] (ds : List Nat) (f : List Nat → T) (s : T) :
    (ofFn ds f).mulScalar s = .ok (ofFn ds (fun i => f i * s)) := map_ofFn ds f _

theorem meanAll_ofFn [Field T] (ds : List Nat) (f : List Nat → T) :
    (ofFn ds f).meanAll = .ok (ofFn [1] (fun _ => ((indices ds).map f).sum * (1 / (ds.prod : T)))) := by
  unfold Tensor.meanAll
  rw [sumAll_ofFn]
  simp only [Except.bind_ok']
  rw [mulScalar_ofFn, lsum_eq_sum]
  rfl

theorem meanAxes_ofFn [Field T] {ds axes : List Nat} (hd : Dims ds) (hn : axes.Nodup)
    (hr : ∀ a ∈ axes, a < ds.length) (hne : axes ≠ []) (hlt : axes.length < ds.length) (f : List Nat → T) :
    (ofFn ds f).meanAxes axes = .ok (ofFn (keepDims axes ds) (fun idx =>
      (fibre ds axes f idx).sum * (1 / (axesCount axes ds : T)))) := by
  unfold Tensor.meanAxes
  have hemp : ¬ (axes.isEmpty = true ∨ axes.length = (ofFn ds f).shape.rank) := by
    rw [ofFn_shape, shapeOf_rank]
    rintro (h | h)
    · exact hne (by simpa using h)
    · omega
  rw [if_neg hemp]
  have ho := off_ne_nil hlt
  have hoff : ∀ {α : Type} (l : List α), off (axes.mergeSort (fun a b => decide (a ≥ b))) l = off axes l :=
    fun l => off_congr mem_axes_sorted l
  simp only [ofFn_shape, shapeOf_dims, meanShape_ints]
  rw [sumAxis_fold hd (axes_sorted hn) (fun a ha => hr a ((mem_axes_sorted a).1 ha)) (by rw [hoff]; exact ho)]
  simp only [Except.bind_ok', hoff]
  rw [mulScalar_ofFn]
  simp only [Except.bind_ok']
  rw [reshaped_ofFn (dims_keepDims axes hd) (off_prod axes ds)]
  rw [reinterpret_off]
  simp only [Int.cast_natCast]
  rfl

theorem meanAxes_err [Field T] {ds axes : List Nat} (hne : axes ≠ []) (hl : axes.length ≠ ds.length)
    (h : ∃ a ∈ axes, ds.length ≤ a) (f : List Nat → T) :
    (ofFn ds f).meanAxes axes = .error .invalidArgument := by
  unfold Tensor.meanAxes
  have hemp : ¬ (axes.isEmpty = true ∨ axes.length = (ofFn ds f).shape.rank) := by
    rw [ofFn_shape, shapeOf_rank]
    rintro (h | h)
    · exact hne (by simpa using h)
    · exact hl h
  rw [if_neg hemp]
  simp only
  have h1 : (axes.mergeSort (fun a b => decide (a ≥ b))).Pairwise (fun a b => decide (a ≥ b) = true) :=
    List.pairwise_mergeSort (fun a b c => by simp; omega) (fun a b => by simp; omega) axes
  obtain ⟨a, ha, hge⟩ := h
  have ha' := (mem_axes_sorted a).2 ha
  generalize axes.mergeSort (fun a b => decide (a ≥ b)) = s at h1 ha'
  cases s with
  | nil => cases ha'
  | cons b s =>
    have hb : ds.length ≤ b := by
      rcases List.mem_cons.1 ha' with rfl | h2
      · exact hge
      · have := (List.pairwise_cons.1 h1).1 a h2
        simp at this; omega
    rw [List.foldlM_cons, ofFn_shape, shapeOf_rank, if_pos hb]
    rfl

/-! ### `variance` -/

theorem stretches_keepDims (axes : List Nat) (ds : List Nat) : Stretches (keepDims axes ds) ds := by
  refine ⟨by simp [keepDims], fun i => ?_⟩
  by_cases hi : i < ds.length
  · rw [dimR_of_lt (by simpa [keepDims] using hi), dimR_of_lt hi]
    simp only [keepDims, List.length_mapIdx, List.getElem_mapIdx]
    split_ifs
    · exact Or.inr rfl
    · exact Or.inl rfl
  · right
    exact dimR_of_ge (by simpa [keepDims] using hi)

theorem variance_total {ds axes : List Nat} (hr : ∀ a ∈ axes, a < ds.length) (n : Nat) :
    axes.foldlM (fun (n : Int) axis =>
      if axis ≥ (shapeOf ds).rank then Except.error Err.runtimeError
      else do
        let d ← (shapeOf ds).get axis
        return n * d) (n : Int) = .ok ((n * (axes.map (fun a => ds.getD a 1)).prod : Nat) : Int) := by
  induction axes generalizing n with
  | nil => simp
  | cons a axes ih =>
    have ha := hr a (by simp)
    rw [List.foldlM_cons, shapeOf_rank, if_neg (by omega),
      shape_get_ofFn (d := ds.getD a 1) (by simp [List.getElem?_eq_getElem ha])]
    simp only [Except.bind_ok', Except.pure_eq']
    have := ih (fun b hb => hr b (by simp [hb])) (n * ds.getD a 1)
    simp only [shapeOf_rank, Except.pure_eq'] at this ⊢
    push_cast at this ⊢
    rw [this]
    simp [mul_assoc]

theorem varianceAxes_unfold [Field T] {ds axes : List Nat} (hd : Dims ds) (hn : axes.Nodup)
    (hr : ∀ a ∈ axes, a < ds.length) (f μ : List Nat → T) :
    (ofFn ds f).varianceAxes (ofFn (keepDims axes ds) μ) axes = (do
      let summed ← (ofFn ds (fun i => (f i - μ (proj (keepDims axes ds) i)) *
        (f i - μ (proj (keepDims axes ds) i)))).sumAxes axes
      forN (keepDims axes ds).prod (ofFn (keepDims axes ds) (fun _ => (0 : T))) (fun i result => do
        let s ← summed.get i
        result.set i (s / (axesCount axes ds : T)))) := by
  unfold Tensor.varianceAxes
  have hk := dims_keepDims axes hd
  have hst := stretches_keepDims axes ds
  obtain ⟨v, hv1, hv2, hv3⟩ := bview_make hk.pos hk.lt hst
  have ht := variance_total hr 1
  rw [one_mul, axes_prod hn hr, Nat.cast_one] at ht
  have ht2 := bview_toList hd.pos v hv2 hv3 hst μ
  rw [ofFn_shape ds f, ofFn_shape (keepDims axes ds) μ, ht]
  simp only [Except.bind_ok', hv1, iter_ofFn, ofFn_data, ht2, zeros_shapeOf]
  unfold Tensor.transform2
  rw [if_neg (by simp), if_neg (by simp)]
  simp only [Except.bind_ok', List.length_map, List.drop_length, ← List.map_drop]
  have e1 : List.zipWith (fun x y : T => (x - y) * (x - y)) ((indices ds).map f)
      ((indices ds).map (fun idx => μ (proj (keepDims axes ds) idx))) ++ ((indices ds).drop (indices ds).length).map (fun _ => (0 : T)) =
      (indices ds).map (fun i => (f i - μ (proj (keepDims axes ds) i)) *
        (f i - μ (proj (keepDims axes ds) i))) := by
    rw [List.drop_length, List.map_nil, List.append_nil, List.zipWith_map, List.zipWith_self]
  simp only [List.drop_length, List.map_nil, List.append_nil] at e1
  simp only [List.map_nil, List.append_nil, e1, Int.cast_natCast]
  rfl

theorem varianceAxes_ofFn [Field T] {ds axes : List Nat} (hd : Dims ds) (hn : axes.Nodup)
    (hr : ∀ a ∈ axes, a < ds.length) (hlt : axes.length < ds.length) (f μ : List Nat → T) :
    (ofFn ds f).varianceAxes (ofFn (keepDims axes ds) μ) axes = .ok (ofFn (keepDims axes ds) (fun idx =>
      (fibre ds axes (fun i => (f i - μ (proj (keepDims axes ds) i)) *
        (f i - μ (proj (keepDims axes ds) i))) idx).sum / (axesCount axes ds : T))) := by
  rw [varianceAxes_unfold hd hn hr]
  have ho := dims_off axes hd (off_ne_nil hlt)
  rw [sumAxes_core hd axes hr, make_dims ho]
  simp only [Except.bind_ok', shapeOf_dims]
  rw [reshaped_eq (ds := keepDims axes ds) _ rfl ho (off_prod axes ds).symm]
  simp only [Except.bind_ok']
  have := forN_fill (ds := keepDims axes ds) (fun _ => (0 : T)) (fun idx =>
      (fibre ds axes (fun i => (f i - μ (proj (keepDims axes ds) i)) *
        (f i - μ (proj (keepDims axes ds) i))) idx).sum / (axesCount axes ds : T))
      (fun i => do
        let s ← (⟨shapeOf (off axes ds), (ofFn (keepDims axes ds) (fun r => lsum (fibre ds axes (fun i => (f i - μ (proj (keepDims axes ds) i)) *
        (f i - μ (proj (keepDims axes ds) i))) r))).data⟩ : Tensor T).get i
        return s / (axesCount axes ds : T)) ?_
  · simp only [bind_assoc, Except.pure_eq', Except.bind_ok'] at this
    exact this
  · intro idx hv
    unfold Tensor.get
    rw [rd_some (ofFn_getElem? _ _ hv), lsum_eq_sum]
    rfl

theorem varianceAxes_all [Field T] {ds axes : List Nat} (hd : Dims ds) (hn : axes.Nodup)
    (hr : ∀ a ∈ axes, a < ds.length) (ho : off axes ds = []) (f μ : List Nat → T) :
    (ofFn ds f).varianceAxes (ofFn (keepDims axes ds) μ) axes = .error .invalidArgument := by
  rw [varianceAxes_unfold hd hn hr, sumAxes_all hd axes hr ho]; rfl

theorem varianceAxes_err [Field T] {ds axes : List Nat} (h : ∃ a ∈ axes, ds.length ≤ a) (f : List Nat → T)
    (m : Tensor T) : (ofFn ds f).varianceAxes m axes = .error .runtimeError := by
  have key : ∀ n : Int, axes.foldlM (fun (n : Int) axis =>
      if axis ≥ (shapeOf ds).rank then Except.error Err.runtimeError
      else do
        let d ← (shapeOf ds).get axis
        return n * d) n = .error .runtimeError := by
    induction axes with
    | nil => obtain ⟨a, ha, _⟩ := h; cases ha
    | cons a axes ih =>
      intro n
      rw [List.foldlM_cons, shapeOf_rank]
      by_cases ha : ds.length ≤ a
      · rw [if_pos ha]; rfl
      · rw [if_neg ha, shape_get_ofFn (d := ds.getD a 1) (by simp [List.getElem?_eq_getElem (show a < ds.length by omega)])]
        obtain ⟨b, hb, hge⟩ := h
        have hb' : b ∈ axes := by
          rcases List.mem_cons.1 hb with rfl | hb
          · omega
          · exact hb
        have := ih ⟨b, hb', hge⟩ (n * ((ds.getD a 1 : Nat) : Int))
        rw [shapeOf_rank] at this
        exact this
  unfold Tensor.varianceAxes
  rw [ofFn_shape, key]
  rfl

theorem off_eq_nil {ds axes : List Nat} (hn : axes.Nodup) (hr : ∀ a ∈ axes, a < ds.length)
    (hall : axes.length = ds.length) : off axes ds = [] := by
  have h1 : axes.Subperm (List.range ds.length) :=
    List.subperm_of_subset hn (fun a ha => by simpa using hr a ha)
  have h2 : axes.Perm (List.range ds.length) := h1.perm_of_length_le (by simp [hall])
  unfold off
  rw [List.map_eq_nil_iff, List.filter_eq_nil_iff]
  rintro ⟨d, i⟩ hp
  have hlt := (List.mem_zipIdx' hp).1
  have : i ∈ axes := h2.mem_iff.2 (by simpa using hlt)
  simp [this]

theorem proj_eq_maskZ {ds i : List Nat} (axes : List Nat) (hv : ValidIdx ds i) :
    proj (keepDims axes ds) i = maskZ (marks axes ds.length) i := by
  have hl := hv.length
  unfold proj maskZ marks
  rw [show i.length - (keepDims axes ds).length = 0 by simp [keepDims, hl], List.drop_zero]
  apply List.ext_getElem
  · simp [keepDims]
  · intro k h1 h2
    have hk : k < ds.length := by simp [keepDims] at h1; omega
    simp only [List.getElem_zipWith, keepDims, List.getElem_mapIdx, List.getElem_map, List.getElem_range,
      decide_eq_true_eq]
    have hlt := (List.forall₂_iff_get.1 hv).2 k (by omega) hk
    simp only [List.get_eq_getElem] at hlt
    by_cases hm : k ∈ axes
    · simp [hm]
    · simp only [hm, if_false]
      split_ifs with h3
      · omega
      · rfl

/-- An element of the fibre over `idx` is compared with the mean at `idx`. -/
theorem proj_keepDims {ds axes i idx : List Nat} (hv : ValidIdx ds i) (hr : ValidIdx (keepDims axes ds) idx)
    (h : agreeOff axes i idx) : proj (keepDims axes ds) i = idx := by
  have hml : (marks axes ds.length).length = ds.length := by simp [marks]
  have hl2 : idx.length = ds.length := by rw [hr.length]; simp [keepDims]
  rw [proj_eq_maskZ axes hv, maskZ_eq_iff hml hv (by rw [← keepDims_eq_keepM]; exact hr)]
  unfold agreeOff at h
  rw [off_eq_offM, off_eq_offM, hv.length, hl2] at h
  exact h

theorem sum_range_single {n i : Nat} (hi : i < n) (c : Nat) :
    ((List.range n).map (fun a => if a = i then c else 0)).sum = c := by
  induction n with
  | zero => omega
  | succ n ih =>
    rw [List.range_succ, List.map_append, List.sum_append]
    by_cases h : i < n
    · rw [ih h]
      simp [show n ≠ i by omega]
    · have : n = i := by omega
      subst this
      have : ((List.range n).map (fun a => if a = n then c else 0)).sum = 0 := by
        apply List.sum_eq_zero
        intro x hx
        obtain ⟨a, ha, rfl⟩ := List.mem_map.1 hx
        have : a < n := by simpa using ha
        simp [show a ≠ n by omega]
      rw [this]
      simp

theorem filter_offM_count {m : List Bool} {ds idx : List Nat} (hm : m.length = ds.length) (hv : ValidIdx ds idx) :
    ((indices ds).filter (fun i => decide (offM m i = offM m idx))).length =
      (List.zipWith (fun b d => if b then d else 1) m ds).prod := by
  induction hv generalizing m with
  | nil =>
    cases m with
    | nil => rfl
    | cons _ _ => simp at hm
  | @cons i d is ds hi hv ih =>
    cases m with
    | nil => simp at hm
    | cons b m =>
      have hm' : m.length = ds.length := by simpa using hm
      simp only [indices, List.zipWith_cons_cons, List.prod_cons]
      rw [List.filter_flatMap, List.length_flatMap]
      cases b
      · simp only [offM, Bool.false_eq_true, if_false, List.filter_map, Function.comp_def, List.length_map, one_mul]
        have : (fun a : Nat => ((indices ds).filter (fun x => decide (a :: offM m x = i :: offM m is))).length) =
            (fun a => if a = i then ((indices ds).filter (fun x => decide (offM m x = offM m is))).length else 0) := by
          funext a
          by_cases ha : a = i
          · subst ha; simp
          · simp [ha]
        rw [this, ih hm']
        exact sum_range_single hi _
      · simp only [offM, if_true, List.filter_map, Function.comp_def, List.length_map]
        rw [ih hm']
        simp

theorem fibre_count {ds idx : List Nat} (axes : List Nat) (hv : ValidIdx ds idx) :
    ((indices ds).filter (fun i => decide (off axes i = off axes idx))).length = axesCount axes ds := by
  have hml : (marks axes ds.length).length = ds.length := by simp [marks]
  have h1 : (indices ds).filter (fun i => decide (off axes i = off axes idx)) =
      (indices ds).filter (fun i => decide (offM (marks axes ds.length) i = offM (marks axes ds.length) idx)) := by
    apply List.filter_congr
    intro i hi
    rw [decide_eq_decide, off_eq_offM, off_eq_offM, hv.length, (mem_indices.1 hi).length]
  rw [h1, filter_offM_count hml hv]
  unfold axesCount marks
  rw [mapIdx_eq_range ds _ 1]
  congr 1
  apply List.ext_getElem
  · simp
  · intro k h1 h2
    have hk : k < ds.length := by simpa using h2
    simp [List.getElem?_eq_getElem hk]

theorem sum_eq_zero_iff_of_nonneg [AddCommMonoid T] [PartialOrder T] [IsOrderedAddMonoid T] {l : List T}
    (h : ∀ x ∈ l, 0 ≤ x) : l.sum = 0 ↔ ∀ x ∈ l, x = 0 := by
  induction l with
  | nil => simp
  | cons a l ih =>
    have h1 := h a (by simp)
    have h2 : 0 ≤ l.sum := List.sum_nonneg (fun x hx => h x (by simp [hx]))
    rw [List.sum_cons, add_eq_zero_iff_of_nonneg h1 h2, ih (fun x hx => h x (by simp [hx]))]
    simp

theorem proj_one (i : List Nat) (hi : i ≠ []) : proj [1] i = [0] := by
  unfold proj
  have h1 : 0 < i.length := List.length_pos_iff.2 hi
  have h2 : (i.drop (i.length - [1].length)).length = 1 := by
    simp only [List.length_drop, List.length_cons, List.length_nil]; omega
  obtain ⟨x, hx⟩ := List.length_eq_one_iff.1 h2
  rw [hx]
  rfl

theorem stretches_one {ds : List Nat} (hne : ds ≠ []) : Stretches [1] ds := by
  refine ⟨by have := List.length_pos_iff.2 hne; simp only [List.length_cons, List.length_nil]; omega, fun i => Or.inr ?_⟩
  cases i with
  | zero => rfl
  | succ i => exact dimR_of_ge (by simp)

theorem varianceAll_ofFn [Field T] {ds : List Nat} (hd : Dims ds) (f : List Nat → T) (m : T) :
    (ofFn ds f).varianceAll (ofFn [1] (fun _ => m)) =
      .ok (ofFn [1] (fun _ => ((indices ds).map (fun i => (f i - m) ^ 2)).sum / (ds.prod : T))) := by
  unfold Tensor.varianceAll Tensor.sub Tensor.mul
  have hst := stretches_one hd.ne
  rw [binop_ofFn _ hd dims_one hst.compat.symm, hst.bdims_eq hd.pos dims_one.pos]
  simp only [Except.bind_ok']
  rw [binop_ofFn _ hd hd (compat_self ds), bdims_self hd.pos]
  simp only [Except.bind_ok']
  rw [sumAll_ofFn]
  simp only [Except.bind_ok']
  rw [mulScalar_ofFn, lsum_eq_sum]
  congr 1
  apply ofFn_congr
  intro idx _
  rw [mul_one_div, ofFn_shape, shapeOf_size]
  congr 2
  apply List.map_congr_left
  intro i hi
  have hv := mem_indices.1 hi
  rw [proj_self (by rw [proj_self hv]; exact hv), proj_self hv, sq]

end
end SmartDNN
