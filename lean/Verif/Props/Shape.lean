import Verif.Proofs.Reshape
import Mathlib.Data.List.Lex

/-!
# Properties C01 - C05: shapes, indexing, reshape, broadcasting of shapes
-/

namespace SmartDNN
open Spec

/-! ## C01 -/

/-- Construction succeeds exactly for non-empty lists of positive dimensions. -/
theorem C01_accepts_iff (dims : List Int) :
    (∃ s, Shape.make dims = .ok s) ↔ dims ≠ [] ∧ ∀ d ∈ dims, 0 < d := make_ok_iff

/-- Every other list is rejected with `std::invalid_argument`. -/
theorem C01_rejects (dims : List Int) (h : ¬ (dims ≠ [] ∧ ∀ d ∈ dims, 0 < d)) :
    Shape.make dims = .error .invalidArgument := make_error h

/-- After construction: dimensions, rank, size and strides. -/
theorem C01_observers (dims : List Int) (s : Shape) (h : Shape.make dims = .ok s) :
    s.dims = dims ∧ s.rank = dims.length ∧
    (s.size : Int) = dims.prod % 2 ^ 64 ∧
    (dims.prod < 2 ^ 64 → (s.size : Int) = dims.prod ∧
      s.stride.length = dims.length ∧
      ∀ i (hi : i < s.stride.length), (s.stride[i] : Int) = (dims.drop (i + 1)).prod) := by
  obtain ⟨hne, hpos⟩ := make_ok_iff.1 ⟨s, h⟩
  obtain ⟨ds, rfl, hp⟩ := exists_ints hpos
  have hprod : ∀ l : List Nat, (ints l).prod = (l.prod : Int) := by
    intro l
    induction l with
    | nil => rfl
    | cons d l ih => simp [ih]
  have hf := make_fields h
  subst hf
  refine ⟨rfl, rfl, ?_, ?_⟩
  · simp only [calculateSize_ints, hprod, sizeMod]; norm_cast
  · intro hl
    rw [hprod] at hl
    have hl' : ds.prod < sizeMod := by unfold sizeMod; exact_mod_cast hl
    simp only [calculateSize_ints, calculateStride_ints hp hl', Nat.mod_eq_of_lt hl', hprod]
    refine ⟨trivial, by simp, ?_⟩
    have key : ∀ (l : List Nat) (i : Nat) (hi : i < (strides l).length),
        ((strides l)[i] : Int) = ((ints l).drop (i + 1)).prod := by
      intro l
      induction l with
      | nil => intro i hi; simp [strides] at hi
      | cons d l ih =>
        intro i hi
        cases i with
        | zero => simp [strides, hprod]
        | succ i => simpa [strides] using ih i (by simpa [strides] using hi)
    exact key ds

/-- `ShapeOperations::concat` of two shapes succeeds; the dimensions of the second follow those of the first. -/
theorem C01_concat (da db : List Int) (a b : Shape) (ha : Shape.make da = .ok a) (hb : Shape.make db = .ok b) :
    ∃ s, Shape.concat a b = .ok s ∧ Shape.make (da ++ db) = .ok s ∧ s.dims = da ++ db := by
  obtain ⟨hne, hpa⟩ := make_ok_iff.1 ⟨a, ha⟩
  obtain ⟨-, hpb⟩ := make_ok_iff.1 ⟨b, hb⟩
  obtain ⟨s, hs⟩ := make_ok_iff.2 (show da ++ db ≠ [] ∧ ∀ d ∈ da ++ db, 0 < d from ⟨by simp [hne], fun d hd =>
    (List.mem_append.1 hd).elim (hpa d) (hpb d)⟩)
  refine ⟨s, ?_, hs, (C01_observers _ _ hs).1⟩
  unfold Shape.concat
  rw [(C01_observers _ _ ha).1, (C01_observers _ _ hb).1, hs]

example : ∃ a b s, Shape.make [2, 3] = .ok a ∧ Shape.make [4] = .ok b ∧ Shape.concat a b = .ok s ∧ s.dims = [2, 3, 4] ∧ s.size = 24 :=
  ⟨_, _, _, rfl, rfl, rfl, rfl, rfl⟩

example : ∃ s, Shape.make [2, 3, 4] = .ok s ∧ s.size = 24 ∧ s.stride = [12, 4, 1] := ⟨_, rfl, rfl, rfl⟩
example : Shape.make [2, 0] = .error .invalidArgument := rfl
example : Shape.make [] = .error .invalidArgument := rfl

/-! ## C02 -/

/-- A valid index tuple addresses the buffer element at its row-major rank. -/
theorem C02_valid {T : Type} (ds idx : List Nat) (f : List Nat → T) (hp : ∀ d ∈ ds, 0 < d)
    (hl : ds.prod < 2 ^ 64) (hv : ValidIdx ds idx) :
    (ofFn ds f).at_ (ints idx) = .ok (f idx) ∧
    (ofFn ds f).data[ravel ds idx]? = some (f idx) ∧ ravel ds idx < (ofFn ds f).data.length := by
  refine ⟨?_, ofFn_getElem? ds f hv, by simpa using ravel_lt hv⟩
  unfold Tensor.at_
  rw [ofFn_shape, computeFlatIndex_valid hp (le_of_lt hl) hv]
  exact rd_some (ofFn_getElem? ds f hv)

/-- A wrong number of indices throws `std::invalid_argument`. -/
theorem C02_rank {T : Type} (ds : List Nat) (f : List Nat → T) (is : List Int)
    (h : is.length ≠ ds.length) : (ofFn ds f).at_ is = .error .invalidArgument := by
  unfold Tensor.at_
  rw [ofFn_shape, computeFlatIndex_rank h]
  rfl

/-- The right number of indices, one of which is negative or too large, throws
`std::out_of_range`. -/
theorem C02_range {T : Type} (ds : List Nat) (f : List Nat → T) (is : List Int)
    (hlen : is.length = ds.length)
    (h : ∃ i, ∃ (h1 : i < is.length) (h2 : i < ds.length), is[i] < 0 ∨ (ds[i] : Int) ≤ is[i]) :
    (ofFn ds f).at_ is = .error .outOfRange := by
  unfold Tensor.at_
  rw [ofFn_shape, computeFlatIndex_range hlen]
  · rfl
  · rintro ⟨idx, rfl, hv⟩
    obtain ⟨i, h1, h2, h3⟩ := h
    have h4 := (List.forall₂_iff_get.1 hv).2 i (by simpa using h1) h2
    simp [ints] at h3 h4
    omega

/-- The cases of `C02_valid`, `C02_rank` and `C02_range` are exhaustive. -/
theorem index_cases (ds : List Nat) (is : List Int) :
    is.length ≠ ds.length ∨
    (is.length = ds.length ∧
      ∃ i, ∃ (h1 : i < is.length) (h2 : i < ds.length), is[i] < 0 ∨ (ds[i] : Int) ≤ is[i]) ∨
    (∃ idx, is = ints idx ∧ ValidIdx ds idx) := by
  by_cases hl : is.length = ds.length
  · by_cases h : ∃ i, ∃ (h1 : i < is.length) (h2 : i < ds.length), is[i] < 0 ∨ (ds[i] : Int) ≤ is[i]
    · exact Or.inr (Or.inl ⟨hl, h⟩)
    · right; right
      push Not at h
      refine ⟨is.map Int.toNat, ?_, ?_⟩
      · apply List.ext_getElem
        · simp [ints]
        · intro i h1 h2
          have := (h i h1 (by omega)).1
          simp [ints]; omega
      · refine List.forall₂_iff_get.2 ⟨by simpa using hl, fun i h1 h2 => ?_⟩
        have := h i (by simpa using h1) h2
        simp; omega
  · exact Or.inl hl

theorem ravel_lex (ds a b : List Nat) (ha : ValidIdx ds a) (hb : ValidIdx ds b) :
    List.Lex (· < ·) a b ↔ ravel ds a < ravel ds b := by
  induction ds generalizing a b with
  | nil => rw [validIdx_nil_iff] at ha hb; subst ha hb; simp [ravel]
  | cons d ds ih =>
    obtain ⟨i, is, rfl, hi, his⟩ := validIdx_cons_iff.1 ha
    obtain ⟨j, js, rfl, hj, hjs⟩ := validIdx_cons_iff.1 hb
    rw [List.cons_lex_cons_iff, ih _ _ his hjs]
    simp only [ravel]
    have h1 := ravel_lt his
    have h2 := ravel_lt hjs
    constructor
    · rintro (h | ⟨rfl, h⟩)
      · have h3 : (i + 1) * ds.prod ≤ j * ds.prod := Nat.mul_le_mul_right _ h
        have h4 : (i + 1) * ds.prod = i * ds.prod + ds.prod := by ring
        omega
      · omega
    · intro h
      rcases lt_trichotomy i j with h3 | h3 | h3
      · exact Or.inl h3
      · subst h3; exact Or.inr ⟨rfl, by omega⟩
      · exfalso
        have h5 : (j + 1) * ds.prod ≤ i * ds.prod := Nat.mul_le_mul_right _ h3
        have h4 : (j + 1) * ds.prod = j * ds.prod + ds.prod := by ring
        omega

/-- The tensor whose buffer is `0, 1, 2, …`. -/
theorem numbered_eq (ds : List Nat) : (⟨shapeOf ds, List.range ds.prod⟩ : Tensor Nat) = ofFn ds (ravel ds) := by
  have h : (indices ds).map (ravel ds) = List.range ds.prod := by
    apply List.ext_getElem?
    intro k
    by_cases hk : k < ds.prod
    · obtain ⟨idx, h1, h2, h3⟩ := exists_idx_of_lt hk
      rw [List.getElem?_map, h3, Option.map_some, h2, List.getElem?_range hk]
    · rw [List.getElem?_eq_none (by simpa using hk), List.getElem?_eq_none (by simpa using hk)]
  rw [← h]
  rfl

theorem numbered_at {ds : List Nat} (hp : ∀ d ∈ ds, 0 < d) (hl : ds.prod < 2 ^ 64) (is : List Int) (k : Nat) :
    (⟨shapeOf ds, List.range ds.prod⟩ : Tensor Nat).at_ is = .ok k ↔ ∃ idx, is = ints idx ∧ ValidIdx ds idx ∧ ravel ds idx = k := by
  rw [numbered_eq]
  rcases index_cases ds is with h | ⟨h1, h2⟩ | ⟨idx, rfl, hv⟩
  · rw [C02_rank ds _ is h]
    refine ⟨fun h => (by cases h), ?_⟩
    rintro ⟨idx, rfl, hv, -⟩
    exact absurd (by simp [hv.length]) h
  · rw [C02_range ds _ is h1 h2]
    refine ⟨fun h => (by cases h), ?_⟩
    rintro ⟨idx, rfl, hv, -⟩
    have := C02_range ds (ravel ds) _ h1 h2
    rw [(C02_valid ds idx _ hp hl hv).1] at this
    cases this
  · rw [(C02_valid ds idx _ hp hl hv).1]
    constructor
    · intro h
      exact ⟨idx, rfl, hv, Except.ok.inj h⟩
    · rintro ⟨idx', he, hv', rfl⟩
      have : idx = idx' := by
        unfold ints at he
        exact List.map_injective_iff.2 (fun a b h => by exact_mod_cast h) he
      rw [this]

/-- Of the tensor whose buffer is `0, 1, 2, …`, every buffer position is read by `at` with exactly one index list. -/
theorem C02_bijection (ds : List Nat) (hp : ∀ d ∈ ds, 0 < d) (hl : ds.prod < 2 ^ 64) (k : Nat) (hk : k < ds.prod) :
    ∃! is : List Int, (⟨shapeOf ds, List.range ds.prod⟩ : Tensor Nat).at_ is = .ok k := by
  obtain ⟨idx, h1, h2, -⟩ := exists_idx_of_lt hk
  refine ⟨ints idx, (numbered_at hp hl _ _).2 ⟨idx, rfl, h1, h2⟩, ?_⟩
  intro is h
  obtain ⟨idx', rfl, h3, h4⟩ := (numbered_at hp hl _ _).1 h
  rw [ravel_inj h3 h1 (h4.trans h2.symm)]

/-- Writing through `at`: the element at the index list becomes the value, every other element stays; index lists that reading rejects are rejected
with the same exception. -/
theorem C02_write {T : Type} (ds : List Nat) (hd : Dims ds) (f : List Nat → T) (is : List Int) (v : T) :
    (∀ x, (ofFn ds f).at_ is = .ok x → ∃ t, (ofFn ds f).setAt is v = .ok t ∧ t.shape = (ofFn ds f).shape ∧ t.at_ is = .ok v ∧
      ∀ js, js ≠ is → t.at_ js = (ofFn ds f).at_ js) ∧
    (∀ e, (ofFn ds f).at_ is = .error e → (ofFn ds f).setAt is v = .error e) := by
  by_cases h : ∃ idx, is = ints idx ∧ ValidIdx ds idx
  · obtain ⟨idx, rfl, hv⟩ := h
    rw [at_ofFn hd f hv]
    refine ⟨fun x _ => ⟨_, setAt_ofFn hd f hv v, rfl, ?_, ?_⟩, fun e he => by cases he⟩
    · rw [at_ofFn hd _ hv]
      simp [upd]
    · intro js hj
      by_cases h2 : ∃ jdx, js = ints jdx ∧ ValidIdx ds jdx
      · obtain ⟨jdx, rfl, hw⟩ := h2
        rw [at_ofFn hd _ hw, at_ofFn hd _ hw]
        have : jdx ≠ idx := fun h => hj (by rw [h])
        simp [upd, this]
      · unfold Tensor.at_
        by_cases hl : js.length = ds.length
        · rw [ofFn_shape, ofFn_shape, computeFlatIndex_range hl h2]
          rfl
        · rw [ofFn_shape, ofFn_shape, computeFlatIndex_rank hl]
          rfl
  · have : ∃ e, computeFlatIndex (shapeOf ds) is = .error e := by
      by_cases hl : is.length = ds.length
      · exact ⟨_, computeFlatIndex_range hl h⟩
      · exact ⟨_, computeFlatIndex_rank hl⟩
    obtain ⟨e, he⟩ := this
    unfold Tensor.at_ Tensor.setAt
    rw [ofFn_shape, he]
    exact ⟨fun x h => (by cases h), fun e h => (by cases h; rfl)⟩

/-- The buffer order is the lexicographic order of the index lists: of two accepted index lists, the smaller one reads the
earlier position. -/
theorem C02_lexicographic (ds : List Nat) (hp : ∀ d ∈ ds, 0 < d) (hl : ds.prod < 2 ^ 64) (is js : List Int) (a b : Nat)
    (ha : (⟨shapeOf ds, List.range ds.prod⟩ : Tensor Nat).at_ is = .ok a)
    (hb : (⟨shapeOf ds, List.range ds.prod⟩ : Tensor Nat).at_ js = .ok b) : List.Lex (· < ·) is js ↔ a < b := by
  obtain ⟨i, rfl, h1, rfl⟩ := (numbered_at hp hl _ _).1 ha
  obtain ⟨j, rfl, h2, rfl⟩ := (numbered_at hp hl _ _).1 hb
  rw [← ravel_lex ds i j h1 h2]
  unfold ints
  clear ha hb h1 h2
  induction i generalizing j with
  | nil => cases j <;> simp
  | cons a i ih =>
    cases j with
    | nil => simp
    | cons b j =>
      rw [List.map_cons, List.map_cons, List.cons_lex_cons_iff, List.cons_lex_cons_iff, ih]
      simp

example : ValidIdx [2, 3, 4] [1, 2, 3] ∧ ravel [2, 3, 4] [1, 2, 3] = 23 := by
  refine ⟨?_, rfl⟩
  simp [ValidIdx]
example : (ofFn [2, 3] (fun i => i)).at_ [1, 2] = .ok [1, 2] := rfl
example : (ofFn [2, 3] (fun i => i)).at_ [1, 3] = .error .outOfRange := rfl
example : (ofFn [2, 3] (fun i => i)).at_ [1] = .error .invalidArgument := rfl

/-! ## C03 -/

/-- Below `2^64` elements no index list makes `at` leave the buffer.  (Partial: the unconditional
statement fails, see `C03_refuted`.) -/
theorem C03_at_safe_partial {T : Type} (ds : List Nat) (f : List Nat → T) (hp : ∀ d ∈ ds, 0 < d)
    (hl : ds.prod < 2 ^ 64) (is : List Int) : (ofFn ds f).at_ is ≠ .error .ub := by
  rcases index_cases ds is with h | ⟨h1, h2⟩ | ⟨idx, rfl, hv⟩
  · rw [C02_rank ds f is h]; simp
  · rw [C02_range ds f is h1 h2]; simp
  · rw [(C02_valid ds idx f hp hl hv).1]; simp

/-- The full claim fails: an accepted shape whose element count wraps to 0 has an empty buffer, and
`at(0,0,0,0)` passes all checks and reads outside it. -/
theorem C03_refuted {T : Type} [Zero T] : ∃ dims s, Shape.make dims = .ok s ∧ s.size = 0 ∧
    (Tensor.zeros s : Tensor T).at_ [0, 0, 0, 0] = .error .ub :=
  ⟨[65536, 65536, 65536, 65536], _, rfl, rfl, rfl⟩

/-- Writing a dimension through `Shape::operator[]` leaves size and strides stale, after which `at`
can read outside the buffer, too. -/
theorem C03_stale_dimension_refuted {T : Type} [Zero T] : ∃ s s', Shape.make [2, 2] = .ok s ∧
    s.setDim 0 3 = .ok s' ∧ (Tensor.zeros s' : Tensor T).at_ [2, 0] = .error .ub :=
  ⟨_, _, rfl, rfl, rfl⟩

/-! ## C04 -/

/-- A target list of `int`s with the same element count is accepted (any count `size_t` holds). -/
private theorem reshape_same {T : Type} {ds es : List Nat} (f : List Nat → T) (hne : es ≠ [])
    (hp : ∀ d ∈ es, 0 < d) (hi : ∀ d ∈ es, d < 2 ^ 31) (hl : ds.prod < 2 ^ 64)
    (h : es.prod = ds.prod) :
    (ofFn ds f).reshape (ints es) = .ok ⟨shapeOf es, (ofFn ds f).data⟩ := by
  have hl' : es.prod < sizeMod := by rw [h]; exact hl
  rw [tensor_reshape_eq, ofFn_shape]
  unfold Shape.reshape Mut.exec
  rw [reshapeM_eq, validate_ints hne hp, reshapeSize_ints hp hi, if_pos hl']
  simp only [shapeOf_size, h, if_true]
  rw [calculateStride_ints hp hl']
  simp only [Except.map, shapeOf, h]

/-- `reshape` succeeds exactly for valid dimension lists with the same element count; then the shape
is the requested one and the flat element sequence is unchanged. -/
theorem C04_reshape_ok_iff {T : Type} (ds : List Nat) (hl : ds.prod < 2 ^ 64) (f : List Nat → T)
    (dims : List Int) (hint : ∀ d ∈ dims, d < 2 ^ 31) (t' : Tensor T) :
    (ofFn ds f).reshape dims = .ok t' ↔
      dims ≠ [] ∧ (∀ d ∈ dims, 0 < d) ∧ dims.prod = (ds.prod : Int) ∧
      t'.shape.dims = dims ∧ t'.shape.size = ds.prod ∧
      t'.shape.stride = strides (dims.map Int.toNat) ∧ t'.data = (ofFn ds f).data := by
  by_cases hv : dims ≠ [] ∧ ∀ d ∈ dims, 0 < d
  · obtain ⟨hne, hpos⟩ := hv
    obtain ⟨es, rfl, hp⟩ := exists_ints hpos
    have hprod : (ints es).prod = (es.prod : Int) := by
      clear hint hne hpos hp
      induction es with
      | nil => rfl
      | cons d l ih => simp [ih]
    have hid : (ints es).map Int.toNat = es := by
      unfold ints; rw [List.map_map]; exact List.map_id' es
    have hne' : es ≠ [] := by rintro rfl; exact hne rfl
    have hi : ∀ d ∈ es, d < 2 ^ 31 := by
      intro d hdm
      have := hint d (List.mem_map.2 ⟨d, hdm, rfl⟩)
      exact_mod_cast this
    rw [hprod, hid]
    by_cases h : es.prod = ds.prod
    · rw [reshape_same f hne' hp hi hl h]
      constructor
      · intro h2
        cases h2
        exact ⟨hne, hpos, by exact_mod_cast h, rfl, h, rfl, rfl⟩
      · rintro ⟨_, _, _, h1, h2, h3, h4⟩
        congr 1
        obtain ⟨⟨d', sz, st⟩, dat⟩ := t'
        simp only at h1 h2 h3 h4
        subst h1 h2 h3 h4
        unfold shapeOf
        rw [h]
    · constructor
      · intro h2
        exfalso
        rw [tensor_reshape_eq] at h2
        unfold Shape.reshape Mut.exec at h2
        rw [reshapeM_eq, ofFn_shape, validate_ints hne' hp, reshapeSize_ints hp hi] at h2
        by_cases h3 : es.prod < sizeMod
        · rw [if_pos h3] at h2
          have h5 : ¬ (shapeOf ds).size = es.prod := Ne.symm h
          simp only [if_neg h5] at h2
          cases h2
        · rw [if_neg h3] at h2
          cases h2
      · rintro ⟨_, _, h2, _⟩
        exact absurd (by exact_mod_cast h2) h
  · constructor
    · intro h2
      exfalso
      rw [tensor_reshape_eq] at h2
      unfold Shape.reshape Mut.exec at h2
      rw [reshapeM_eq, validateDimensions_error hv] at h2
      cases h2
    · rintro ⟨h1, h2, _⟩
      exact absurd ⟨h1, h2⟩ hv

/-- Whenever `reshape` throws, the tensor object is exactly as before (any state, any argument). -/
theorem C04_reshape_strong_guarantee {T : Type} (t : Tensor T) (dims : List Int) (e : Err)
    (h : (Tensor.reshapeM dims t).1 = .error e) : (Tensor.reshapeM dims t).2 = t := by
  unfold Tensor.reshapeM at *
  rw [reshapeM_eq] at *
  cases h1 : validateDimensions dims with
  | error e => rfl
  | ok u =>
    simp only [h1] at h
    cases h2 : reshapeSize dims with
    | error e => rfl
    | ok n =>
      simp only [h2] at h ⊢
      split at h
      · cases h
      · next h3 => rw [if_neg h3]

/-- A failing `reshape` throws a C++ exception (it never aborts or runs into undefined behaviour). -/
theorem C04_reshape_throws {T : Type} (ds : List Nat) (f : List Nat → T)
    (dims : List Int) (hint : ∀ d ∈ dims, d < 2 ^ 31) (e : Err)
    (h : (ofFn ds f).reshape dims = .error e) :
    e = .invalidArgument ∨ e = .overflowError ∨ e = .runtimeError := by
  rw [tensor_reshape_eq] at h
  unfold Shape.reshape Mut.exec at h
  rw [reshapeM_eq] at h
  by_cases hv : dims ≠ [] ∧ ∀ d ∈ dims, 0 < d
  · obtain ⟨es, rfl, hp⟩ := exists_ints hv.2
    rw [validateDimensions_ok_iff.2 hv] at h
    have hi : ∀ d ∈ es, d < 2 ^ 31 := by
      intro d hdm
      have := hint d (List.mem_map.2 ⟨d, hdm, rfl⟩)
      exact_mod_cast this
    rw [reshapeSize_ints hp hi] at h
    by_cases h3 : es.prod < sizeMod
    · rw [if_pos h3] at h
      simp only at h
      split_ifs at h
      · cases h
      · cases h; simp
    · rw [if_neg h3] at h; cases h; simp
  · rw [validateDimensions_error hv] at h
    cases h; simp

/-- Reshaping and reshaping back restores the tensor. -/
theorem C04_reshape_roundtrip {T : Type} (ds : List Nat) (hne : ds ≠ []) (hp : ∀ d ∈ ds, 0 < d)
    (hi : ∀ d ∈ ds, d < 2 ^ 31) (hl : ds.prod < 2 ^ 64) (f : List Nat → T)
    (dims : List Int) (hint : ∀ d ∈ dims, d < 2 ^ 31) (t' : Tensor T)
    (h : (ofFn ds f).reshape dims = .ok t') : t'.reshape (ints ds) = .ok (ofFn ds f) := by
  obtain ⟨h1, h2, h3, h4, h5, h6, h7⟩ := (C04_reshape_ok_iff ds hl f dims hint t').1 h
  rw [tensor_reshape_eq]
  unfold Shape.reshape Mut.exec
  rw [reshapeM_eq, validate_ints hne hp, reshapeSize_ints hp hi,
    if_pos (show ds.prod < sizeMod from hl)]
  simp only
  rw [if_pos h5]
  simp only [calculateStride_ints hp (show ds.prod < sizeMod from hl), Except.map, h5, h7]
  rfl

example : ((ofFn [2, 3] (fun i => i)).reshape [3, 2]).map (·.data) =
    .ok [[0,0],[0,1],[0,2],[1,0],[1,1],[1,2]] := rfl
example : (ofFn [2, 3] (fun i => i)).reshape [4, 2] = .error .runtimeError := rfl
example : [2, 3].prod < 2 ^ 64 ∧ ∀ d ∈ [2, 3], 0 < d ∧ d < 2 ^ 31 := by simp

/-! ## C05 -/

/-- Broadcastable shapes: the result has the larger rank and the larger dimension at each position
counted from the right. -/
theorem C05_broadcast_ok (a b : List Nat) (ha : ∀ d ∈ a, 0 < d) (hb : ∀ d ∈ b, 0 < d) (hne : a ≠ [])
    (hl : (bdims a b).prod < 2 ^ 64) (h : Compat a b) :
    broadcastShapes (shapeOf a) (shapeOf b) = .ok (shapeOf (bdims a b)) ∧
    (bdims a b).length = max a.length b.length ∧
    ∀ i, dimR (bdims a b) i = max (dimR a i) (dimR b i) :=
  ⟨broadcastShapes_ok ha hb hne h hl, bdims_length a b, dimR_bdims ha hb⟩

/-- Incompatible shapes throw `std::invalid_argument`. -/
theorem C05_broadcast_rejects (a b : List Nat) (h : ¬ Compat a b) :
    broadcastShapes (shapeOf a) (shapeOf b) = .error .invalidArgument := broadcastShapes_err h

/-- The query agrees with the operation. -/
theorem C05_query_agrees (a b : List Nat) (ha : ∀ d ∈ a, 0 < d) (hb : ∀ d ∈ b, 0 < d) (hne : a ≠ []) :
    (areBroadcastable (shapeOf a) (shapeOf b) = .ok true ↔
      ∃ s, broadcastShapes (shapeOf a) (shapeOf b) = .ok s) ∧
    (areBroadcastable (shapeOf a) (shapeOf b) = .ok true ↔ Compat a b) ∧
    (areBroadcastable (shapeOf a) (shapeOf b) = .ok false ↔ ¬ Compat a b) := by
  rw [areBroadcastable_shapeOf]
  refine ⟨?_, by simp, by simp⟩
  by_cases h : Compat a b
  · rw [broadcastShapes_compat ha hb h]
    simp only [h, decide_true, true_iff]
    exact make_ok_iff.2 ⟨ints_ne (bdims_ne hne), ints_pos (bdims_pos ha)⟩
  · rw [broadcastShapes_err h]
    simp [h]

/-- Commutativity. -/
theorem C05_commutative (a b : List Nat) (ha : ∀ d ∈ a, 0 < d) (hb : ∀ d ∈ b, 0 < d) :
    broadcastShapes (shapeOf a) (shapeOf b) = broadcastShapes (shapeOf b) (shapeOf a) := by
  by_cases h : Compat a b
  · rw [broadcastShapes_compat ha hb h, broadcastShapes_compat hb ha h.symm, bdims_comm]
  · rw [broadcastShapes_err h, broadcastShapes_err (fun h2 => h h2.symm)]

/-- Idempotence. -/
theorem C05_idempotent (a : List Nat) (ha : Dims a) :
    broadcastShapes (shapeOf a) (shapeOf a) = .ok (shapeOf a) := by
  rw [broadcastShapes_ok ha.pos ha.pos ha.ne (compat_self a) (by rw [bdims_self ha.pos]; exact ha.lt64),
    bdims_self ha.pos]

/-- Associativity: both groupings succeed or fail together, with the same result. -/
theorem C05_associative (a b c : List Nat) (ha : ∀ d ∈ a, 0 < d) (hb : ∀ d ∈ b, 0 < d)
    (hc : ∀ d ∈ c, 0 < d) (hane : a ≠ []) (hbne : b ≠ [])
    (hl1 : (bdims a b).prod < 2 ^ 64) (hl2 : (bdims b c).prod < 2 ^ 64) :
    (do let s ← broadcastShapes (shapeOf a) (shapeOf b); broadcastShapes s (shapeOf c)) =
    (do let s ← broadcastShapes (shapeOf b) (shapeOf c); broadcastShapes (shapeOf a) s) := by
  by_cases h1 : Compat a b <;> by_cases h2 : Compat b c
  · rw [broadcastShapes_ok ha hb hane h1 hl1, broadcastShapes_ok hb hc hbne h2 hl2]
    simp only [Except.bind_ok']
    have := compat_assoc ha hb hc
    by_cases h3 : Compat (bdims a b) c
    · have h4 := (this.1 ⟨h1, h3⟩).2
      rw [broadcastShapes_compat (bdims_pos ha) hc h3, broadcastShapes_compat ha (bdims_pos hb) h4,
        bdims_assoc ha hb hc]
    · rw [broadcastShapes_err h3, broadcastShapes_err (fun h4 => h3 (this.2 ⟨h2, h4⟩).2)]
  · rw [broadcastShapes_ok ha hb hane h1 hl1, broadcastShapes_err h2]
    simp only [Except.bind_ok', Except.bind_error']
    exact broadcastShapes_err (fun h3 => h2 ((compat_assoc ha hb hc).1 ⟨h1, h3⟩).1)
  · rw [broadcastShapes_err h1, broadcastShapes_ok hb hc hbne h2 hl2]
    simp only [Except.bind_ok', Except.bind_error']
    exact (broadcastShapes_err (fun h3 => h1 ((compat_assoc ha hb hc).2 ⟨h2, h3⟩).1)).symm
  · rw [broadcastShapes_err h1, broadcastShapes_err h2]
    rfl

example : broadcastShapes (shapeOf [4, 1, 3]) (shapeOf [2, 1]) = .ok (shapeOf [4, 2, 3]) := rfl
example : Compat [4, 1, 3] [2, 1] := by decide
example : ¬ Compat [2, 3] [2, 4] := by decide

end SmartDNN
