import Verif.Proofs.Index
import Verif.Proofs.Loops
import Verif.Spec.Broadcast
import Verif.Model.TensorOps

/-! Lemmas about shapes. -/

namespace SmartDNN
open Spec

theorem toSizeT_nat {n : Nat} (h : n < 2 ^ 64) : toSizeT (n : Int) = n := by
  unfold toSizeT sizeMod
  rw [Int.emod_eq_of_lt (by omega) (by exact_mod_cast h)]
  simp

theorem toSizeT_mod (n : Nat) : toSizeT (n : Int) = n % 2 ^ 64 := by
  unfold toSizeT sizeMod
  norm_cast

theorem exists_ints {dims : List Int} (h : ∀ d ∈ dims, 0 < d) : ∃ ds, dims = ints ds ∧ ∀ d ∈ ds, 0 < d := by
  refine ⟨dims.map Int.toNat, ?_, ?_⟩
  · unfold ints
    rw [List.map_map]
    conv_lhs => rw [← List.map_id dims]
    refine List.map_congr_left (fun d hd => ?_)
    have := h d hd
    simp; omega
  · intro d hd
    obtain ⟨x, hx, rfl⟩ := List.mem_map.1 hd
    have := h x hx; omega

theorem validateDimensions_ok_iff {dims : List Int} :
    validateDimensions dims = .ok () ↔ dims ≠ [] ∧ ∀ d ∈ dims, 0 < d := by
  unfold validateDimensions
  split
  · next h => simp_all
  · next h =>
    split
    · next h2 =>
      simp only [List.any_eq_true, decide_eq_true_eq] at h2
      obtain ⟨d, hd, hd'⟩ := h2
      simp only [reduceCtorEq, false_iff, not_and]
      intro _ h3
      have := h3 d hd
      omega
    · next h2 =>
      simp only [List.any_eq_true, decide_eq_true_eq, not_exists, not_and, not_le] at h2
      simp_all

theorem validateDimensions_error {dims : List Int} (h : ¬ (dims ≠ [] ∧ ∀ d ∈ dims, 0 < d)) :
    validateDimensions dims = .error .invalidArgument := by
  rw [← validateDimensions_ok_iff] at h
  unfold validateDimensions at *
  split
  · rfl
  · next h1 =>
    split
    · rfl
    · next h2 => simp [h1, h2] at h

theorem ints_pos {ds : List Nat} (h : ∀ d ∈ ds, 0 < d) : ∀ d ∈ ints ds, 0 < d := by
  intro d hd
  obtain ⟨x, hx, rfl⟩ := List.mem_map.1 hd
  have := h x hx
  exact_mod_cast this

theorem ints_ne {ds : List Nat} (h : ds ≠ []) : ints ds ≠ [] := by
  simpa [ints] using h

theorem validate_ints {ds : List Nat} (hne : ds ≠ []) (hp : ∀ d ∈ ds, 0 < d) :
    validateDimensions (ints ds) = .ok () :=
  validateDimensions_ok_iff.2 ⟨ints_ne hne, ints_pos hp⟩

theorem foldl_size (ds : List Nat) (acc : Nat) :
    (ints ds).foldl (fun acc d => (acc * toSizeT d) % sizeMod) (acc % sizeMod)
      = (acc * ds.prod) % sizeMod := by
  induction ds generalizing acc with
  | nil => simp
  | cons d ds ih =>
    simp only [ints_cons, List.foldl_cons, List.prod_cons]
    have : (acc % sizeMod * toSizeT (d : Int)) % sizeMod = (acc * d) % sizeMod := by
      rw [toSizeT_mod]
      simp [Nat.mul_mod, sizeMod]
    rw [this, ih, Nat.mul_assoc]

theorem calculateSize_ints (ds : List Nat) : calculateSize (ints ds) = ds.prod % sizeMod := by
  unfold calculateSize
  have := foldl_size ds 1
  rw [show 1 % sizeMod = 1 from rfl, Nat.one_mul] at this
  exact this

theorem calculateStride_ints_mod (ds : List Nat) :
    calculateStride (ints ds) = (strides ds).map (· % sizeMod) := by
  induction ds with
  | nil => rfl
  | cons d ds ih =>
    cases ds with
    | nil => rfl
    | cons e es =>
      simp only [ints_cons] at ih ⊢
      rw [calculateStride, ih]
      simp only [strides, List.map_cons, List.headD_cons, List.prod_cons]
      congr 1
      rw [toSizeT_mod]
      simp [Nat.mul_mod, sizeMod, Nat.mul_comm]

theorem strides_lt {ds : List Nat} (hp : ∀ d ∈ ds, 0 < d) (hl : ds.prod < sizeMod) :
    ∀ s ∈ strides ds, s < sizeMod := by
  induction ds with
  | nil => simp [strides]
  | cons d ds ih =>
    have hd : 0 < d := hp d (by simp)
    have h2 : ds.prod < sizeMod := by
      refine lt_of_le_of_lt ?_ hl
      rw [List.prod_cons]
      exact Nat.le_mul_of_pos_left _ hd
    simp only [strides, List.mem_cons]
    rintro s (rfl | hs)
    · exact h2
    · exact ih (fun x hx => hp x (by simp [hx])) h2 s hs

theorem calculateStride_ints {ds : List Nat} (hp : ∀ d ∈ ds, 0 < d) (hl : ds.prod < sizeMod) :
    calculateStride (ints ds) = strides ds := by
  rw [calculateStride_ints_mod]
  conv_rhs => rw [← List.map_id (strides ds)]
  exact List.map_congr_left (fun s hs => Nat.mod_eq_of_lt (strides_lt hp hl s hs))

/-- Construction of a valid shape. -/
theorem make_ints {ds : List Nat} (hne : ds ≠ []) (hp : ∀ d ∈ ds, 0 < d) (hl : ds.prod < sizeMod) :
    Shape.make (ints ds) = .ok (shapeOf ds) := by
  unfold Shape.make
  rw [validate_ints hne hp]
  simp only [Except.bind_ok', Except.pure_eq', calculateSize_ints, calculateStride_ints hp hl,
    Nat.mod_eq_of_lt hl]
  rfl

theorem Spec.Dims.lt64 {ds : List Nat} (h : Dims ds) : ds.prod < sizeMod :=
  lt_of_lt_of_le h.lt (by decide)

theorem make_dims {ds : List Nat} (h : Dims ds) : Shape.make (ints ds) = .ok (shapeOf ds) :=
  make_ints h.ne h.pos h.lt64

theorem dims_one : Dims [1] := ⟨by simp, by simp, by simp⟩

theorem make_one : Shape.make [1] = .ok (shapeOf [1]) := make_dims dims_one

theorem make_error {dims : List Int} (h : ¬ (dims ≠ [] ∧ ∀ d ∈ dims, 0 < d)) :
    Shape.make dims = .error .invalidArgument := by
  unfold Shape.make
  rw [validateDimensions_error h]
  rfl

theorem make_ok_iff {dims : List Int} :
    (∃ s, Shape.make dims = .ok s) ↔ dims ≠ [] ∧ ∀ d ∈ dims, 0 < d := by
  constructor
  · rintro ⟨s, hs⟩
    by_contra h
    rw [make_error h] at hs
    cases hs
  · rintro ⟨h1, h2⟩
    exact ⟨_, by unfold Shape.make; rw [validateDimensions_ok_iff.2 ⟨h1, h2⟩]; rfl⟩

theorem make_fields {dims : List Int} {s : Shape} (h : Shape.make dims = .ok s) :
    s = { dims := dims, size := calculateSize dims, stride := calculateStride dims } := by
  unfold Shape.make at h
  cases hv : validateDimensions dims with
  | error e => rw [hv] at h; cases h
  | ok u => rw [hv] at h; simp at h; exact h.symm

/-! ### computeFlatIndex -/

theorem flatIndexLoop_valid {ds idx : List Nat} (hp : ∀ d ∈ ds, 0 < d) (hv : ValidIdx ds idx)
    (acc : Nat) (hacc : acc + ds.prod ≤ sizeMod) :
    flatIndexLoop (ints ds) (strides ds) (ints idx) acc = .ok (acc + ravel ds idx) := by
  induction ds generalizing idx acc with
  | nil => rw [validIdx_nil_iff] at hv; subst hv; simp [flatIndexLoop, ravel]
  | cons d ds ih =>
    obtain ⟨i, is, rfl, hi, his⟩ := validIdx_cons_iff.1 hv
    simp only [ints_cons, strides, flatIndexLoop, ravel]
    have hds : 0 < ds.prod := prod_pos_of (fun x hx => hp x (by simp [hx]))
    have h1 : (i + 1) * ds.prod ≤ d * ds.prod := Nat.mul_le_mul_right _ hi
    rw [List.prod_cons] at hacc
    have h2 : (i + 1) * ds.prod = i * ds.prod + ds.prod := by ring
    have hisz : i < sizeMod := by
      have : i * 1 ≤ i * ds.prod := Nat.mul_le_mul_left _ hds
      omega
    have hs : toSizeT (i : Int) = i := toSizeT_nat hisz
    rw [if_neg (by omega), hs, Nat.mod_eq_of_lt (by omega)]
    rw [ih (fun x hx => hp x (by simp [hx])) his _ (by omega)]
    congr 1; omega

theorem flatIndexLoop_invalid {ds : List Nat} {is : List Int} (acc : Nat) {ss : List Nat}
    (hss : ss.length = ds.length) (hlen : is.length = ds.length)
    (h : ¬ ∃ idx, is = ints idx ∧ ValidIdx ds idx) :
    flatIndexLoop (ints ds) ss is acc = .error .outOfRange := by
  induction ds generalizing is acc ss with
  | nil =>
    exfalso; apply h
    exact ⟨[], by simpa using hlen, validIdx_nil⟩
  | cons d ds ih =>
    cases is with
    | nil => simp at hlen
    | cons i is =>
      cases ss with
      | nil => simp at hss
      | cons s ss =>
      simp only [ints_cons, flatIndexLoop]
      by_cases hi : i < 0 ∨ i ≥ (d : Int)
      · rw [if_pos hi]
      · rw [if_neg hi]
        push Not at hi
        apply ih _ (by simpa using hss) (by simpa using hlen)
        rintro ⟨idx, rfl, hv⟩
        apply h
        refine ⟨i.toNat :: idx, by simp; omega, ValidIdx.cons.2 ⟨by omega, hv⟩⟩

@[simp] theorem strides_length (ds : List Nat) : (strides ds).length = ds.length := by
  induction ds with
  | nil => rfl
  | cons d ds ih => simp [strides, ih]

theorem computeFlatIndex_valid {ds idx : List Nat} (hp : ∀ d ∈ ds, 0 < d) (hl : ds.prod ≤ sizeMod)
    (hv : ValidIdx ds idx) : computeFlatIndex (shapeOf ds) (ints idx) = .ok (ravel ds idx) := by
  unfold computeFlatIndex
  rw [if_neg (by simp [hv.length])]
  have := flatIndexLoop_valid hp hv 0 (by omega)
  simpa using this

theorem computeFlatIndex_rank {ds : List Nat} {is : List Int} (h : is.length ≠ ds.length) :
    computeFlatIndex (shapeOf ds) is = .error .invalidArgument := by
  unfold computeFlatIndex
  rw [if_pos (by simpa using h)]

theorem computeFlatIndex_range {ds : List Nat} {is : List Int} (hlen : is.length = ds.length)
    (h : ¬ ∃ idx, is = ints idx ∧ ValidIdx ds idx) :
    computeFlatIndex (shapeOf ds) is = .error .outOfRange := by
  unfold computeFlatIndex
  rw [if_neg (by simpa using hlen)]
  exact flatIndexLoop_invalid 0 (by simp) hlen h

/-! ### at -/

section
variable {T : Type}

theorem at_ofFn {ds idx : List Nat} (hd : Dims ds) (f : List Nat → T) (hv : ValidIdx ds idx) :
    (ofFn ds f).at_ (ints idx) = .ok (f idx) := by
  unfold Tensor.at_
  rw [ofFn_shape, computeFlatIndex_valid hd.pos hd.lt64.le hv]
  exact rd_some (ofFn_getElem? ds f hv)

/-- Function update at an index tuple. -/
def Spec.upd (f : List Nat → T) (idx : List Nat) (v : T) : List Nat → T :=
  fun j => if j = idx then v else f j

theorem set_ofFn {ds idx : List Nat} (f : List Nat → T) (hv : ValidIdx ds idx) (v : T) :
    ((indices ds).map f).set (ravel ds idx) v = (indices ds).map (upd f idx v) := by
  apply List.ext_getElem?
  intro k
  rw [List.getElem?_set]
  by_cases hk : k < ds.prod
  · obtain ⟨j, hj, hr, hi⟩ := exists_idx_of_lt hk
    rw [List.getElem?_map, List.getElem?_map, hi]
    by_cases h : ravel ds idx = k
    · have : j = idx := ravel_inj hj hv (by rw [hr, h])
      subst this
      simp [upd, hr, hk]
    · rw [if_neg h]
      have : j ≠ idx := by rintro rfl; exact h hr
      simp [upd, this]
  · rw [List.getElem?_eq_none (l := (indices ds).map (upd f idx v)) (by simp; omega)]
    have := ravel_lt hv
    rw [if_neg (by omega)]
    exact List.getElem?_eq_none (by simp; omega)

theorem setAt_ofFn {ds idx : List Nat} (hd : Dims ds) (f : List Nat → T) (hv : ValidIdx ds idx)
    (v : T) : (ofFn ds f).setAt (ints idx) v = .ok (ofFn ds (upd f idx v)) := by
  unfold Tensor.setAt
  rw [ofFn_shape, computeFlatIndex_valid hd.pos hd.lt64.le hv]
  simp only [Except.bind_ok']
  rw [wr_lt (by simpa using ravel_lt hv)]
  simp only [Except.bind_ok', Except.pure_eq', ofFn_data, set_ofFn f hv]
  rfl

theorem modifyAt_ofFn {ds idx : List Nat} (hd : Dims ds) (f : List Nat → T) (hv : ValidIdx ds idx)
    (g : T → T) : (ofFn ds f).modifyAt (ints idx) g = .ok (ofFn ds (upd f idx (g (f idx)))) := by
  unfold Tensor.modifyAt
  rw [ofFn_shape, computeFlatIndex_valid hd.pos hd.lt64.le hv]
  simp only [Except.bind_ok']
  rw [rd_some (ofFn_getElem? ds f hv)]
  simp only [Except.bind_ok']
  rw [wr_lt (by simpa using ravel_lt hv)]
  simp only [Except.bind_ok', Except.pure_eq', ofFn_data, set_ofFn f hv]
  rfl

theorem get_ofFn {ds idx : List Nat} (f : List Nat → T) (hv : ValidIdx ds idx) :
    (ofFn ds f).get (ravel ds idx : Nat) = .ok (f idx) := rd_some (ofFn_getElem? ds f hv)

theorem setFlat_ofFn {ds idx : List Nat} (f : List Nat → T) (hv : ValidIdx ds idx) (v : T) :
    (ofFn ds f).set (ravel ds idx : Nat) v = .ok (ofFn ds (upd f idx v)) := by
  unfold Tensor.set
  rw [wr_lt (by simpa using ravel_lt hv)]
  simp only [Except.bind_ok', Except.pure_eq', ofFn_data, set_ofFn f hv]
  rfl

theorem iter_ofFn (ds : List Nat) (f : List Nat → T) :
    (ofFn ds f).iter = .ok ((indices ds).map f) := by
  unfold Tensor.iter
  rw [if_pos (by simp)]
  simp only [ofFn_data, ofFn_shape, shapeOf_size]
  rw [List.take_of_length_le (by simp)]

theorem map_const_indices (ds : List Nat) (v : T) :
    (indices ds).map (fun _ => v) = List.replicate ds.prod v := by
  rw [List.map_const', length_indices]

theorem full_shapeOf (ds : List Nat) (v : T) : Tensor.full (shapeOf ds) v = ofFn ds (fun _ => v) := by
  unfold Tensor.full ofFn
  rw [map_const_indices]
  rfl

theorem zeros_shapeOf [Zero T] (ds : List Nat) :
    (Tensor.zeros (shapeOf ds) : Tensor T) = ofFn ds (fun _ => 0) := full_shapeOf ds 0

theorem map_ofFn (ds : List Nat) (f : List Nat → T) (g : T → T) :
    (ofFn ds f).map g = .ok (ofFn ds (fun i => g (f i))) := by
  unfold Tensor.map
  rw [iter_ofFn]
  simp only [Except.bind_ok', Except.pure_eq', List.map_map]
  rfl

theorem mapInPlace_ofFn (ds : List Nat) (f : List Nat → T) (g : T → T) :
    (ofFn ds f).mapInPlace g = .ok (ofFn ds (fun i => g (f i))) := by
  unfold Tensor.mapInPlace
  rw [iter_ofFn]
  simp only [Except.bind_ok', Except.pure_eq', List.map_map, ofFn_data, ofFn_shape, shapeOf_size]
  rw [List.drop_of_length_le (by simp), List.append_nil]
  rfl

end

end SmartDNN
