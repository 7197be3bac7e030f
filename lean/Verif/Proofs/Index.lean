import Verif.Spec.Index
import Mathlib.Data.List.Nodup
import Mathlib.Data.List.Flatten
import Mathlib.Data.List.Forall2
import Mathlib.Tactic.Ring
import Mathlib.Tactic.Linarith

/-! Lemmas about index tuples. -/

namespace SmartDNN
namespace Spec

theorem ValidIdx.cons {d i : Nat} {ds is : List Nat} :
    ValidIdx (d :: ds) (i :: is) ↔ i < d ∧ ValidIdx ds is := by
  simp [ValidIdx]

@[simp] theorem validIdx_nil : ValidIdx [] [] := List.Forall₂.nil

theorem ValidIdx.length {ds idx : List Nat} (h : ValidIdx ds idx) : idx.length = ds.length :=
  List.Forall₂.length_eq h

theorem validIdx_nil_iff {idx : List Nat} : ValidIdx [] idx ↔ idx = [] := by
  simp [ValidIdx]

theorem validIdx_cons_iff {d : Nat} {ds idx : List Nat} :
    ValidIdx (d :: ds) idx ↔ ∃ i is, idx = i :: is ∧ i < d ∧ ValidIdx ds is := by
  constructor
  · intro h
    cases idx with
    | nil => simp [ValidIdx] at h
    | cons i is => exact ⟨i, is, rfl, ValidIdx.cons.1 h⟩
  · rintro ⟨i, is, rfl, h⟩
    exact ValidIdx.cons.2 h

theorem mem_indices {ds idx : List Nat} : idx ∈ indices ds ↔ ValidIdx ds idx := by
  induction ds generalizing idx with
  | nil => simp [indices, validIdx_nil_iff]
  | cons d ds ih =>
    simp only [indices, List.mem_flatMap, List.mem_range, List.mem_map, validIdx_cons_iff, ih]
    constructor
    · rintro ⟨i, hi, is, his, rfl⟩; exact ⟨i, is, rfl, hi, his⟩
    · rintro ⟨i, is, rfl, hi, his⟩; exact ⟨i, hi, is, his, rfl⟩

@[simp] theorem length_indices (ds : List Nat) : (indices ds).length = ds.prod := by
  induction ds with
  | nil => simp [indices]
  | cons d ds ih => simp [indices, List.length_flatMap, ih]

theorem ravel_lt {ds idx : List Nat} (h : ValidIdx ds idx) : ravel ds idx < ds.prod := by
  induction ds generalizing idx with
  | nil => rw [validIdx_nil_iff] at h; subst h; simp [ravel]
  | cons d ds ih =>
    obtain ⟨i, is, rfl, hi, his⟩ := validIdx_cons_iff.1 h
    have := ih his
    simp only [ravel, List.prod_cons]
    calc i * ds.prod + ravel ds is < i * ds.prod + ds.prod := by omega
      _ = (i + 1) * ds.prod := by ring
      _ ≤ d * ds.prod := Nat.mul_le_mul_right _ hi

theorem getElem?_flatMap_range {α : Type _} (d m : Nat) (g : Nat → List α)
    (hlen : ∀ i, (g i).length = m) (i j : Nat) (hi : i < d) (hj : j < m) :
    ((List.range d).flatMap g)[i * m + j]? = (g i)[j]? := by
  induction d generalizing i with
  | zero => omega
  | succ d ih =>
    rw [List.range_succ, List.flatMap_append]
    have hl : ((List.range d).flatMap g).length = d * m := by
      simp [List.length_flatMap, hlen]
    by_cases h : i < d
    · rw [List.getElem?_append_left]
      · exact ih i h
      · rw [hl]
        calc i * m + j < i * m + m := by omega
          _ = (i + 1) * m := by ring
          _ ≤ d * m := Nat.mul_le_mul_right _ h
    · have : i = d := by omega
      subst this
      rw [List.getElem?_append_right (by rw [hl]; omega), hl]
      simp

theorem indices_ravel {ds idx : List Nat} (h : ValidIdx ds idx) :
    (indices ds)[ravel ds idx]? = some idx := by
  induction ds generalizing idx with
  | nil => rw [validIdx_nil_iff] at h; subst h; simp [ravel, indices]
  | cons d ds ih =>
    obtain ⟨i, is, rfl, hi, his⟩ := validIdx_cons_iff.1 h
    simp only [ravel, indices]
    rw [getElem?_flatMap_range d ds.prod _ (by simp) i _ hi (ravel_lt his)]
    simp [ih his]

theorem nodup_indices (ds : List Nat) : (indices ds).Nodup := by
  induction ds with
  | nil => simp [indices]
  | cons d ds ih =>
    simp only [indices]
    rw [List.nodup_flatMap]
    refine ⟨fun i _ => ih.map (by intro a b; simp), ?_⟩
    refine List.Pairwise.imp ?_ (List.nodup_range (n := d))
    intro a b hab
    simp only [Function.onFun, List.disjoint_left]
    intro x hx hx'
    simp only [List.mem_map] at hx hx'
    obtain ⟨_, _, rfl⟩ := hx
    obtain ⟨_, _, h⟩ := hx'
    simp at h; exact hab h.1.symm

theorem ravel_inj {ds a b : List Nat} (ha : ValidIdx ds a) (hb : ValidIdx ds b)
    (h : ravel ds a = ravel ds b) : a = b := by
  have h1 := indices_ravel ha
  have h2 := indices_ravel hb
  rw [h] at h1
  exact Option.some.inj (h1.symm.trans h2)

theorem exists_idx_of_lt {ds : List Nat} {k : Nat} (h : k < ds.prod) :
    ∃ idx, ValidIdx ds idx ∧ ravel ds idx = k ∧ (indices ds)[k]? = some idx := by
  have hk : k < (indices ds).length := by simpa using h
  refine ⟨(indices ds)[k], mem_indices.1 (List.getElem_mem _), ?_, List.getElem?_eq_getElem hk⟩
  have hv : ValidIdx ds (indices ds)[k] := mem_indices.1 (List.getElem_mem _)
  have h1 := indices_ravel hv
  rw [List.getElem?_eq_some_iff] at h1
  obtain ⟨h2, h3⟩ := h1
  exact ((nodup_indices ds).getElem_inj_iff).1 h3

/-! ### `ofFn` -/

section
variable {T : Type}

@[simp] theorem ofFn_shape (ds : List Nat) (f : List Nat → T) : (ofFn ds f).shape = shapeOf ds := rfl
@[simp] theorem ofFn_data (ds : List Nat) (f : List Nat → T) :
    (ofFn ds f).data = (indices ds).map f := rfl
@[simp] theorem shapeOf_dims (ds : List Nat) : (shapeOf ds).dims = ints ds := rfl
@[simp] theorem shapeOf_size (ds : List Nat) : (shapeOf ds).size = ds.prod := rfl
@[simp] theorem shapeOf_stride (ds : List Nat) : (shapeOf ds).stride = strides ds := rfl
@[simp] theorem ints_length (ds : List Nat) : (ints ds).length = ds.length := by simp [ints]
@[simp] theorem shapeOf_rank (ds : List Nat) : (shapeOf ds).rank = ds.length := by simp [Shape.rank]
@[simp] theorem ints_nil : ints [] = [] := rfl
@[simp] theorem ints_cons (d : Nat) (ds : List Nat) : ints (d :: ds) = (d : Int) :: ints ds := rfl
theorem ints_inj {a b : List Nat} (h : ints a = ints b) : a = b :=
  List.map_injective_iff.2 (fun x y h => by exact_mod_cast h) h
@[simp] theorem ints_append (a b : List Nat) : ints (a ++ b) = ints a ++ ints b := by simp [ints]
@[simp] theorem ints_reverse (a : List Nat) : ints a.reverse = (ints a).reverse := by simp [ints]
theorem ints_eraseIdx (a : List Nat) (i : Nat) : ints (a.eraseIdx i) = (ints a).eraseIdx i :=
  (List.eraseIdx_map ..).symm
theorem ints_replicate (n k : Nat) : ints (List.replicate n k) = List.replicate n (k : Int) :=
  List.map_replicate
theorem ints_getElem? (a : List Nat) (i : Nat) : (ints a)[i]? = Option.map (fun n : Nat => (n : Int)) a[i]? :=
  List.getElem?_map
theorem ints_set (a : List Nat) (i v : Nat) : ints (a.set i v) = (ints a).set i (v : Int) :=
  List.map_set

theorem prod_pos_of {ds : List Nat} (h : ∀ d ∈ ds, 0 < d) : 0 < ds.prod := by
  induction ds with
  | nil => simp
  | cons d ds ih =>
    rw [List.prod_cons]
    exact Nat.mul_pos (h d (by simp)) (ih (fun x hx => h x (by simp [hx])))

theorem ofFn_congr {ds : List Nat} {f g : List Nat → T} (h : ∀ idx, ValidIdx ds idx → f idx = g idx) :
    ofFn ds f = ofFn ds g := by
  unfold ofFn
  congr 1
  exact List.map_congr_left (fun a ha => h a (mem_indices.1 ha))

theorem ofFn_inj {ds : List Nat} {f g : List Nat → T} (h : ofFn ds f = ofFn ds g)
    {idx : List Nat} (hv : ValidIdx ds idx) : f idx = g idx := by
  have : (indices ds).map f = (indices ds).map g := congrArg Tensor.data h
  exact List.map_inj_left.1 this idx (mem_indices.2 hv)

theorem ofFn_dims_inj {ds es : List Nat} {f g : List Nat → T} (h : ofFn ds f = ofFn es g) :
    ds = es := ints_inj (congrArg (fun t => t.shape.dims) h)

/-- Every tensor in a consistent state is an `ofFn`. -/
theorem exists_ofFn {t : Tensor T} {ds : List Nat} (hd : Dims ds) (hs : t.shape = shapeOf ds)
    (hl : t.data.length = ds.prod) : ∃ f, t = ofFn ds f := by
  have hp : 0 < ds.prod := prod_pos_of hd.pos
  have hne : t.data ≠ [] := by intro h; rw [h] at hl; simp at hl; omega
  refine ⟨fun idx => t.data.getD (ravel ds idx) (t.data.head hne), ?_⟩
  obtain ⟨s, d⟩ := t
  simp only at hs hl hne
  subst hs
  unfold ofFn
  congr 1
  apply List.ext_getElem?
  intro k
  by_cases hk : k < ds.prod
  · obtain ⟨idx, _, hr, hi⟩ := exists_idx_of_lt hk
    rw [List.getElem?_map, hi, Option.map_some, hr, List.getD_eq_getElem?_getD, List.getElem?_eq_getElem (by omega)]
    simp
  · rw [List.getElem?_eq_none (by omega), List.getElem?_eq_none (by simp; omega)]

theorem ofFn_getElem? (ds : List Nat) (f : List Nat → T) {idx : List Nat} (h : ValidIdx ds idx) :
    (ofFn ds f).data[ravel ds idx]? = some (f idx) := by
  simp [indices_ravel h]

theorem Dims.prod_pos {ds : List Nat} (h : Dims ds) : 0 < ds.prod :=
  prod_pos_of h.pos

theorem valid_ofFn {ds : List Nat} (h : Dims ds) (f : List Nat → T) : Valid (ofFn ds f) :=
  ⟨ds, h, rfl, by simp⟩

theorem Valid.exists_ofFn {t : Tensor T} (h : Valid t) : ∃ ds f, Dims ds ∧ t = ofFn ds f := by
  obtain ⟨ds, hd, hs, hl⟩ := h
  obtain ⟨f, hf⟩ := Spec.exists_ofFn hd hs hl
  exact ⟨ds, f, hd, hf⟩

end

end Spec
end SmartDNN
