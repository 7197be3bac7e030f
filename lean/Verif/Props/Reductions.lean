import Verif.Proofs.Mean
import Mathlib.Algebra.Order.Field.Basic
import Mathlib.Algebra.Order.BigOperators.Group.List
import Mathlib.Data.Rat.Defs
import Mathlib.Algebra.Order.Ring.Rat

/-!
# Properties C10 - C13: sums, means, variances
-/

namespace SmartDNN
open Spec

/-! ## C10 -/

/-- `sum(t)`: one element, the left-to-right sum of all elements. -/
theorem C10_total {T : Type} [Zero T] [Add T] (ds : List Nat) (f : List Nat → T) :
    (ofFn ds f).sumAll = .ok (ofFn [1] (fun _ => lsum ((indices ds).map f))) := sumAll_ofFn ds f

/-- `sum(t, axis)` for rank >= 2: the dimension is removed and each element is the sum along the axis
in increasing order. -/
theorem C10_axis {T : Type} [Zero T] [Add T] (ds : List Nat) (hd : Dims ds) (axis : Nat)
    (ha : axis < ds.length) (hr : 1 < ds.length) (f : List Nat → T) :
    (ofFn ds f).sumAxis axis =
      .ok (ofFn (ds.eraseIdx axis) (fun j => lsum (line ds[axis] axis f j))) :=
  sumAxis_ofFn hd ha hr f

/-- `sum(t, 0)` of a rank-1 tensor is the total. -/
theorem C10_rank1 {T : Type} [Zero T] [Add T] (d : Nat) (f : List Nat → T) :
    (ofFn [d] f).sumAxis 0 = .ok (ofFn [1] (fun _ => lsum ((List.range d).map (fun k => f [k])))) := by
  rw [sumAxis_rank1, sumAll_ofFn, indices_one, List.map_map]
  rfl

/-- An axis out of range throws `std::runtime_error`. -/
theorem C10_rejects {T : Type} [Zero T] [Add T] (ds : List Nat) (axis : Nat) (ha : ds.length ≤ axis)
    (f : List Nat → T) : (ofFn ds f).sumAxis axis = .error .runtimeError := sumAxis_err ha f

/-- Reducing an axis preserves the total (exact arithmetic). -/
theorem C10_total_preserved {T : Type} [AddCommMonoid T] (ds : List Nat) (hd : Dims ds) (axis : Nat)
    (ha : axis < ds.length) (f : List Nat → T) :
    (do let r ← (ofFn ds f).sumAxis axis; r.sumAll) = (ofFn ds f).sumAll := by
  by_cases hr : 1 < ds.length
  · rw [sumAxis_scatter hd ha hr]
    simp only [Except.bind_ok']
    rw [sumAll_ofFn, sumAll_ofFn]
    simp only [lsum_eq_sum]
    have := sum_fibres (nodup_indices (ds.eraseIdx axis)) (indices ds) (fun x => x.eraseIdx axis)
      (fun x hx => mem_indices.2 (validIdx_eraseIdx (mem_indices.1 hx) axis)) (fun _ => true) f
    simp only [List.filter_true] at this
    rw [this]
  · have : ds.length = 1 := by have := List.length_pos_iff.2 hd.ne; omega
    obtain ⟨d, rfl⟩ := List.length_eq_one_iff.1 this
    have : axis = 0 := by simpa using ha
    subst this
    rw [sumAxis_rank1, sumAll_ofFn]
    simp only [Except.bind_ok']
    rw [sumAll_ofFn]
    simp [lsum_eq_sum, indices]

example : (ofFn [2, 3] (fun i => (10 * i.getD 0 0 + i.getD 1 0 : Int))).sumAxis 1 =
    .ok (ofFn [2] (fun j => 30 * (j.getD 0 0 : Int) + 3)) := rfl
example : (ofFn [2, 3] (fun i => (10 * i.getD 0 0 + i.getD 1 0 : Int))).sumAxis 0 =
    .ok (ofFn [3] (fun j => 10 + 2 * (j.getD 0 0 : Int))) := rfl

/-! ## C11 -/

/-- `sum(t, axes)` for in-range axes (repetitions allowed) that leave at least one dimension: at each
index over the remaining dimensions, the sum (in row-major order) of exactly the elements that agree
with it there.  (Partial: fails when all axes are summed, see `C11_all_axes_refuted`.) -/
theorem C11_axes_partial {T : Type} [Zero T] [Add T] (ds : List Nat) (hd : Dims ds) (axes : List Nat)
    (h : ∀ a ∈ axes, a < ds.length) (hne : ∃ i < ds.length, i ∉ axes) (f : List Nat → T) :
    (ofFn ds f).sumAxes axes = .ok (ofFn (off axes ds) (fun j =>
      lsum (((indices ds).filter (fun i => decide (off axes i = j))).map f))) := by
  obtain ⟨i, hi, hi2⟩ := hne
  refine sumAxes_ofFn hd axes h (fun he => ?_) f
  have : ds[i] ∈ off axes ds := by
    unfold off
    rw [List.mem_map]
    refine ⟨(ds[i], i), ?_, rfl⟩
    rw [List.mem_filter]
    refine ⟨?_, by simpa using hi2⟩
    rw [List.mem_zipIdx_iff_getElem?]
    simp
  rw [he] at this
  cases this

/-- Summing over all axes throws `std::invalid_argument` for every tensor: the claim "for any list of
in-range axes" fails. -/
theorem C11_all_axes_refuted {T : Type} [Zero T] [Add T] (ds : List Nat) (hd : Dims ds) (axes : List Nat)
    (h : ∀ a ∈ axes, a < ds.length) (hall : ∀ i < ds.length, i ∈ axes) (f : List Nat → T) :
    (ofFn ds f).sumAxes axes = .error .invalidArgument := by
  refine sumAxes_all hd axes h ?_ f
  unfold off
  rw [List.map_eq_nil_iff, List.filter_eq_nil_iff]
  rintro ⟨d, i⟩ hp
  have hlt := (List.mem_zipIdx' hp).1
  simp [hall i hlt]

/-- An out-of-range axis throws `std::runtime_error`. -/
theorem C11_rejects {T : Type} [Zero T] [Add T] (ds axes : List Nat) (h : ∃ a ∈ axes, ds.length ≤ a)
    (f : List Nat → T) : (ofFn ds f).sumAxes axes = .error .runtimeError := by
  refine sumAxes_err axes (fun h2 => ?_) f
  obtain ⟨a, ha, hge⟩ := h
  have := h2 a ha
  omega

/-- Repetitions and order of the axes do not matter. -/
theorem C11_repeated_axes {T : Type} [Zero T] [Add T] (ds : List Nat) (hd : Dims ds) (a b : List Nat)
    (h : ∀ i, i ∈ a ↔ i ∈ b) (ha : ∀ i ∈ a, i < ds.length) (f : List Nat → T) :
    (ofFn ds f).sumAxes a = (ofFn ds f).sumAxes b := by
  have hb : ∀ i ∈ b, i < ds.length := fun i hi => ha i ((h i).2 hi)
  by_cases hne : ∃ i < ds.length, i ∉ a
  · have hne' : ∃ i < ds.length, i ∉ b := by
      obtain ⟨i, hi, hi2⟩ := hne
      exact ⟨i, hi, fun h2 => hi2 ((h i).2 h2)⟩
    rw [C11_axes_partial ds hd a ha hne, C11_axes_partial ds hd b hb hne']
    simp only [off_congr h]
  · push Not at hne
    rw [C11_all_axes_refuted ds hd a ha hne, C11_all_axes_refuted ds hd b hb (fun i hi => (h i).1 (hne i hi))]

example : (ofFn [2, 3, 2] (fun i => (100 * i.getD 0 0 + 10 * i.getD 1 0 + i.getD 2 0 : Int))).sumAxes [0, 2] =
    .ok (ofFn [3] (fun j => 202 + 40 * (j.getD 0 0 : Int))) := rfl

/-! ## C12 -/

/-- `mean(t)`: total divided by the number of elements. -/
theorem C12_total {T : Type} [Field T] (ds : List Nat) (f : List Nat → T) :
    (ofFn ds f).meanAll = .ok (ofFn [1] (fun _ => ((indices ds).map f).sum / (ds.prod : T))) := by
  rw [meanAll_ofFn]
  simp only [mul_one_div]

/-- `mean(t, axes)` for distinct in-range axes, neither empty nor all: kept dimensions, and at each
index the average of exactly the elements that agree with it off the axes. -/
theorem C12_axes {T : Type} [Field T] (ds : List Nat) (hd : Dims ds) (axes : List Nat) (hn : axes.Nodup)
    (hr : ∀ a ∈ axes, a < ds.length) (hne : axes ≠ []) (hlt : axes.length < ds.length) (f : List Nat → T) :
    (ofFn ds f).meanAxes axes = .ok (ofFn (keepDims axes ds) (fun idx =>
      (((indices ds).filter (fun i => decide (off axes i = off axes idx))).map f).sum /
        (axesCount axes ds : T))) := by
  rw [meanAxes_ofFn hd hn hr hne hlt]
  simp only [mul_one_div]
  rfl

theorem validIdx_keepDims {ds axes idx : List Nat} (hp : ∀ d ∈ ds, 0 < d) (hv : ValidIdx (keepDims axes ds) idx) :
    ValidIdx ds idx := by
  have hl : idx.length = ds.length := by rw [hv.length]; simp [keepDims]
  refine List.forall₂_iff_get.2 ⟨hl, fun k h1 h2 => ?_⟩
  have := (List.forall₂_iff_get.1 hv).2 k h1 (by simpa [keepDims] using h2)
  simp only [keepDims, List.get_eq_getElem, List.getElem_mapIdx] at this ⊢
  have := hp _ (List.getElem_mem h2)
  split at * <;> omega

/-- The divisor is the number of averaged elements. -/
theorem C12_average {T : Type} [Field T] (ds : List Nat) (hd : Dims ds) (axes : List Nat) (hn : axes.Nodup)
    (hr : ∀ a ∈ axes, a < ds.length) (hne : axes ≠ []) (hlt : axes.length < ds.length) (f : List Nat → T) :
    (ofFn ds f).meanAxes axes = .ok (ofFn (keepDims axes ds) (fun idx =>
      (((indices ds).filter (fun i => decide (off axes i = off axes idx))).map f).sum /
        (((indices ds).filter (fun i => decide (off axes i = off axes idx))).length : T))) := by
  rw [C12_axes ds hd axes hn hr hne hlt]
  refine congrArg Except.ok (ofFn_congr fun idx hv => ?_)
  rw [fibre_count axes (validIdx_keepDims hd.pos hv)]

/-- No axes, or as many axes as dimensions: the total mean. -/
theorem C12_degenerate {T : Type} [Field T] (ds : List Nat) (axes : List Nat)
    (h : axes = [] ∨ axes.length = ds.length) (f : List Nat → T) :
    (ofFn ds f).meanAxes axes = (ofFn ds f).meanAll := by
  unfold Tensor.meanAxes
  rw [if_pos]
  rw [ofFn_shape, shapeOf_rank]
  rcases h with rfl | h
  · exact Or.inl rfl
  · exact Or.inr h

/-- Otherwise an out-of-range axis is rejected with `std::invalid_argument`. -/
theorem C12_rejects {T : Type} [Field T] (ds : List Nat) (axes : List Nat) (hne : axes ≠ [])
    (hl : axes.length ≠ ds.length) (h : ∃ a ∈ axes, ds.length ≤ a) (f : List Nat → T) :
    (ofFn ds f).meanAxes axes = .error .invalidArgument := meanAxes_err hne hl h f

example : Dims [2, 3, 2] ∧ [2, 0].Nodup ∧ (∀ a ∈ [2, 0], a < [2, 3, 2].length) ∧
    [2, 0].length < [2, 3, 2].length ∧ keepDims [2, 0] [2, 3, 2] = [1, 3, 1] ∧
    axesCount [2, 0] [2, 3, 2] = 4 :=
  ⟨⟨by simp, by simp, by simp⟩, by decide, by decide, by decide, by decide, by decide⟩

/-! ## C13 -/

/-- `variance(t, m, axes)` for distinct in-range axes that leave at least one dimension, `m` of the
kept-dimension shape: at each index the average squared deviation from `m` of exactly the elements
agreeing with it off the axes (all reads in range). -/
theorem C13_variance {T : Type} [Field T] (ds : List Nat) (hd : Dims ds) (axes : List Nat) (hn : axes.Nodup)
    (hr : ∀ a ∈ axes, a < ds.length) (hlt : axes.length < ds.length) (f μ : List Nat → T) :
    (ofFn ds f).varianceAxes (ofFn (keepDims axes ds) μ) axes = .ok (ofFn (keepDims axes ds) (fun idx =>
      (((indices ds).filter (fun i => decide (off axes i = off axes idx))).map
        (fun i => (f i - μ idx) ^ 2)).sum / (axesCount axes ds : T))) := by
  rw [varianceAxes_ofFn hd hn hr hlt]
  congr 1
  apply ofFn_congr
  intro idx hv
  congr 2
  unfold fibre
  apply List.map_congr_left
  intro i hi
  rw [List.mem_filter] at hi
  rw [proj_keepDims (mem_indices.1 hi.1) hv (by simpa using hi.2), sq]

/-- Axes covering all dimensions throw `std::invalid_argument`. -/
theorem C13_all_axes {T : Type} [Field T] (ds : List Nat) (hd : Dims ds) (axes : List Nat) (hn : axes.Nodup)
    (hr : ∀ a ∈ axes, a < ds.length) (hall : axes.length = ds.length) (f μ : List Nat → T) :
    (ofFn ds f).varianceAxes (ofFn (keepDims axes ds) μ) axes = .error .invalidArgument :=
  varianceAxes_all hd hn hr (off_eq_nil hn hr hall) f μ

theorem variance_nonneg_zero_iff {T : Type} [Field T] [LinearOrder T] [IsStrictOrderedRing T] (ds : List Nat)
    (hd : Dims ds) (axes : List Nat) (f μ : List Nat → T) (idx : List Nat) :
    0 ≤ (((indices ds).filter (fun i => decide (off axes i = off axes idx))).map
        (fun i => (f i - μ idx) ^ 2)).sum / (axesCount axes ds : T) ∧
    ((((indices ds).filter (fun i => decide (off axes i = off axes idx))).map
        (fun i => (f i - μ idx) ^ 2)).sum / (axesCount axes ds : T) = 0 ↔
      ∀ i, ValidIdx ds i → off axes i = off axes idx → f i = μ idx) := by
  have hc : (0 : T) < (axesCount axes ds : T) := by exact_mod_cast axesCount_pos hd.pos
  have hnn : ∀ x ∈ ((indices ds).filter (fun i => decide (off axes i = off axes idx))).map
        (fun i => (f i - μ idx) ^ 2), (0 : T) ≤ x := by
    intro x hx
    obtain ⟨i, _, rfl⟩ := List.mem_map.1 hx
    exact sq_nonneg _
  have h0 := List.sum_nonneg hnn
  refine ⟨div_nonneg h0 hc.le, ?_⟩
  rw [div_eq_zero_iff, or_iff_left hc.ne']
  constructor
  · intro hz i hv hi
    have := (sum_eq_zero_iff_of_nonneg hnn).1 hz ((f i - μ idx) ^ 2)
      (List.mem_map.2 ⟨i, List.mem_filter.2 ⟨mem_indices.2 hv, by simpa using hi⟩, rfl⟩)
    exact sub_eq_zero.1 (pow_eq_zero_iff (two_ne_zero) |>.1 this)
  · intro h
    apply (sum_eq_zero_iff_of_nonneg hnn).2
    intro x hx
    obtain ⟨i, hi, rfl⟩ := List.mem_map.1 hx
    rw [List.mem_filter] at hi
    rw [h i (mem_indices.1 hi.1) (by simpa using hi.2)]
    simp

/-- The reported variance is non-negative, and zero exactly when all averaged elements equal the given
mean. -/
theorem C13_nonneg_zero_iff {T : Type} [Field T] [LinearOrder T] [IsStrictOrderedRing T] (ds : List Nat)
    (hd : Dims ds) (axes : List Nat) (hn : axes.Nodup) (hr : ∀ a ∈ axes, a < ds.length)
    (hlt : axes.length < ds.length) (f μ : List Nat → T) :
    ∃ v : List Nat → T, (ofFn ds f).varianceAxes (ofFn (keepDims axes ds) μ) axes =
        .ok (ofFn (keepDims axes ds) v) ∧
      ∀ idx, 0 ≤ v idx ∧
        (v idx = 0 ↔ ∀ i, ValidIdx ds i → off axes i = off axes idx → f i = μ idx) :=
  ⟨_, C13_variance ds hd axes hn hr hlt f μ, fun idx => variance_nonneg_zero_iff ds hd axes f μ idx⟩

/-- An out-of-range axis throws `std::runtime_error`. -/
theorem C13_rejects {T : Type} [Field T] (ds : List Nat) (axes : List Nat) (h : ∃ a ∈ axes, ds.length ≤ a)
    (f : List Nat → T) (m : Tensor T) : (ofFn ds f).varianceAxes m axes = .error .runtimeError :=
  varianceAxes_err h f m

/-- `variance(t, m)` over everything, with `m` the one-element total mean. -/
theorem C13_total {T : Type} [Field T] (ds : List Nat) (hd : Dims ds) (f : List Nat → T) (m : T) :
    (ofFn ds f).varianceAll (ofFn [1] (fun _ => m)) =
      .ok (ofFn [1] (fun _ => ((indices ds).map (fun i => (f i - m) ^ 2)).sum / (ds.prod : T))) :=
  varianceAll_ofFn hd f m

example : Dims [2, 3] ∧ [0].Nodup ∧ (∀ a ∈ [0], a < [2, 3].length) ∧ [0].length < [2, 3].length :=
  ⟨⟨by simp, by simp, by simp⟩, by decide, by decide, by decide⟩

end SmartDNN
