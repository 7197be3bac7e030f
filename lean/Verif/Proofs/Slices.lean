import Verif.Proofs.Matmul
import Verif.Spec.Slice

/-! Slice views, `Tensor::slice`, equality, printing and factories. -/

namespace SmartDNN
open Spec

/-! ### Strided windows -/

/-- Start and step lists that are admissible for dimensions `ds`. -/
inductive WinOK : List Nat → List Nat → List Nat → Prop
  | nil : WinOK [] [] []
  | cons {d s t : Nat} {ds ss ts : List Nat} : s < d → 0 < t → WinOK ds ss ts →
      WinOK (d :: ds) (s :: ss) (t :: ts)

theorem windowCount_pos {d s t : Nat} (hs : s < d) (ht : 0 < t) : 0 < windowCount d s t := by
  unfold windowCount
  exact Nat.div_pos (by omega) ht

theorem window_lt {d s t i : Nat} (hs : s < d) (ht : 0 < t) : i < windowCount d s t ↔ s + i * t < d := by
  unfold windowCount
  rw [← Nat.succ_le_iff, Nat.le_div_iff_mul_le ht, Nat.succ_mul]
  omega

theorem windowDims_pos {ds ss ts : List Nat} (h : WinOK ds ss ts) : ∀ d ∈ windowDims ds ss ts, 0 < d := by
  induction h with
  | nil => simp [windowDims]
  | cons h1 h2 _ ih =>
    intro d hd
    simp only [windowDims, List.mem_cons] at hd
    rcases hd with rfl | hd
    · exact windowCount_pos h1 h2
    · exact ih d hd

theorem windowCount_le {d s t : Nat} (hs : s < d) (ht : 0 < t) : windowCount d s t ≤ d := by
  by_contra hc
  have := (window_lt hs ht).1 (show d < windowCount d s t by omega)
  have := Nat.le_mul_of_pos_right d ht
  omega

theorem windowDims_le {ds ss ts : List Nat} (h : WinOK ds ss ts) :
    List.Forall₂ (· ≤ ·) (windowDims ds ss ts) ds := by
  induction h with
  | nil => exact List.Forall₂.nil
  | cons h1 h2 _ ih => exact List.Forall₂.cons (windowCount_le h1 h2) ih

theorem dims_window {ds ss ts : List Nat} (hd : Dims ds) (h : WinOK ds ss ts) : Dims (windowDims ds ss ts) := by
  refine ⟨?_, windowDims_pos h, lt_of_le_of_lt (prod_le_of_le (windowDims_le h)) hd.lt⟩
  have := (windowDims_le h).length_eq
  intro hn
  rw [hn] at this
  exact hd.ne (List.length_eq_zero_iff.1 this.symm)

theorem windowIdx_valid {ds ss ts idx : List Nat} (h : WinOK ds ss ts) (hv : ValidIdx (windowDims ds ss ts) idx) :
    ValidIdx ds (windowIdx ss ts idx) := by
  induction h generalizing idx with
  | nil => simp [windowIdx]
  | cons h1 h2 _ ih =>
    simp only [windowDims] at hv
    obtain ⟨i, is, rfl, hi, his⟩ := validIdx_cons_iff.1 hv
    exact ValidIdx.cons.2 ⟨(window_lt h1 h2).1 hi, ih his⟩

theorem windowIdx_inj {ds ss ts a b : List Nat} (h : WinOK ds ss ts) (ha : ValidIdx (windowDims ds ss ts) a)
    (hb : ValidIdx (windowDims ds ss ts) b) (he : windowIdx ss ts a = windowIdx ss ts b) : a = b := by
  induction h generalizing a b with
  | nil => rw [validIdx_nil_iff.1 ha, validIdx_nil_iff.1 hb]
  | cons h1 h2 _ ih =>
    simp only [windowDims] at ha hb
    obtain ⟨i, is, rfl, hi, his⟩ := validIdx_cons_iff.1 ha
    obtain ⟨j, js, rfl, hj, hjs⟩ := validIdx_cons_iff.1 hb
    simp only [windowIdx, List.cons.injEq] at he
    rw [ih his hjs he.2]
    have := Nat.eq_of_mul_eq_mul_right h2 (show i * _ = j * _ by omega)
    rw [this]

theorem sliceMapIndex_spec {ds ss ts idx : List Nat} (hp : ∀ d ∈ ds, 0 < d) (h : WinOK ds ss ts)
    (hv : ValidIdx (windowDims ds ss ts) idx) (acc : Nat) (hacc : acc + ds.prod ≤ 2 ^ 31) :
    sliceMapIndex (ints idx) (ints ss) (ints ts) (strides ds) acc = ((acc + ravel ds (windowIdx ss ts idx) : Nat) : Int) := by
  induction h generalizing idx acc with
  | nil => rw [validIdx_nil_iff.1 hv]; simp [sliceMapIndex, ravel]
  | @cons d s t ds ss ts h1 h2 hw ih =>
    simp only [windowDims] at hv
    obtain ⟨i, is, rfl, hi, his⟩ := validIdx_cons_iff.1 hv
    have hlt := (window_lt h1 h2).1 hi
    simp only [ints_cons, strides, sliceMapIndex, windowIdx, ravel]
    have hpd := prod_pos_of (fun d hd => hp d (List.mem_cons_of_mem _ hd))
    have hle : (s + i * t + 1) * ds.prod ≤ d * ds.prod := Nat.mul_le_mul_right _ hlt
    rw [List.prod_cons] at hacc
    rw [Nat.succ_mul] at hle
    have e : ((acc : Int) + ((s : Int) + (i : Int) * (t : Int)) * ((ds.prod : Nat) : Int)) =
        ((acc + (s + i * t) * ds.prod : Nat) : Int) := by push_cast; ring
    rw [e, toInt32_small (by omega), ih (fun d hd => hp d (by simp [hd])) his _ (by omega)]
    push_cast; ring

/-- Resolution of a `start` argument (negative counts from the end, then clamped). -/
theorem sliceStart_nat {d s : Nat} (h : s < d) : sliceStart (d : Int) (s : Int) = s := by
  unfold sliceStart
  simp only
  rw [if_neg (by omega), min_eq_left (by omega), max_eq_right (by omega)]

theorem slicedDim_nat {d s t : Nat} (h : s < d) (ht : 0 < t) :
    slicedDim (d : Int) (s : Int) (t : Int) = .ok (windowCount d s t : Int) := by
  unfold slicedDim windowCount
  rw [if_neg (by omega)]
  have : (d : Int) - s + t - 1 = ((d - s + t - 1 : Nat) : Int) := by omega
  rw [this]
  congr 1

theorem zipWith_start {ds ss ts : List Nat} (h : WinOK ds ss ts) (es : List Int) (he : es.length = ds.length) :
    List.zipWith (fun d (p : Int × Int) => sliceStart d p.1) (ints ds) ((ints ss).zip es) = ints ss := by
  induction h generalizing es with
  | nil => rfl
  | cons h1 h2 _ ih =>
    cases es with
    | nil => simp at he
    | cons e es =>
      simp only [ints_cons, List.zip_cons_cons, List.zipWith_cons_cons, sliceStart_nat h1]
      rw [ih es (by simpa using he)]

theorem mapM_sliced {ds ss ts : List Nat} (h : WinOK ds ss ts) :
    (((ints ds).zip (ints ss)).zip (ints ts)).mapM (fun q => slicedDim q.1.1 q.1.2 q.2) =
      (.ok (ints (windowDims ds ss ts)) : Res (List Int)) := by
  induction h with
  | nil => rfl
  | cons h1 h2 _ ih =>
    simp only [ints_cons, List.zip_cons_cons, List.mapM_cons, slicedDim_nat h1 h2, ih, windowDims]
    rfl

theorem WinOK.lengths {ds ss ts : List Nat} (h : WinOK ds ss ts) : ss.length = ds.length ∧ ts.length = ds.length := by
  induction h with
  | nil => simp
  | cons _ _ _ ih => simp [ih]

theorem sview_make {ds ss ts : List Nat} (hd : Dims ds) (h : WinOK ds ss ts) (es : List Int)
    (he : es.length = ds.length) :
    SView.make (shapeOf ds) ((ints ss).zip es) (ints ts) =
      .ok ⟨shapeOf ds, shapeOf (windowDims ds ss ts), ints ss, ints ts⟩ := by
  unfold SView.make
  obtain ⟨h1, h2⟩ := h.lengths
  rw [if_neg (by simp [h1, h2, he])]
  simp only [shapeOf_dims, zipWith_start h es he, mapM_sliced h]
  simp only [Except.bind_ok', make_dims (dims_window hd h)]
  rfl

section
variable {T : Type}

theorem sview_read {ds ss ts : List Nat} (hd : Dims ds) (h : WinOK ds ss ts) (f : List Nat → T)
    {idx : List Nat} (hv : ValidIdx (windowDims ds ss ts) idx) :
    (⟨shapeOf ds, shapeOf (windowDims ds ss ts), ints ss, ints ts⟩ : SView).read (ofFn ds f).data (ints idx) =
      .ok (f (windowIdx ss ts idx)) := by
  unfold SView.read SView.mapIndex
  rw [if_pos (by simp [hv.length])]
  have := sliceMapIndex_spec hd.pos h hv 0 (by have := hd.lt; omega)
  simp only [Nat.cast_zero, Nat.zero_add] at this
  simp only [shapeOf_stride]
  rw [this]
  exact rd_some (ofFn_getElem? ds f (windowIdx_valid h hv))

theorem sview_set {ds ss ts : List Nat} (hd : Dims ds) (h : WinOK ds ss ts) (f : List Nat → T)
    {idx : List Nat} (hv : ValidIdx (windowDims ds ss ts) idx) (x : T) :
    (⟨shapeOf ds, shapeOf (windowDims ds ss ts), ints ss, ints ts⟩ : SView).set (ofFn ds f).data (ints idx) x =
      .ok (ofFn ds (upd f (windowIdx ss ts idx) x)).data := by
  unfold SView.set SView.mapIndex
  rw [if_pos (by simp [hv.length])]
  have := sliceMapIndex_spec hd.pos h hv 0 (by have := hd.lt; omega)
  simp only [Nat.cast_zero, Nat.zero_add] at this
  simp only [shapeOf_stride]
  rw [this, wr_lt (by simpa using ravel_lt (windowIdx_valid h hv))]
  rw [ofFn_data, set_ofFn f (windowIdx_valid h hv)]
  rfl

theorem sview_toList {ds ss ts : List Nat} (hd : Dims ds) (h : WinOK ds ss ts) (f : List Nat → T) :
    (⟨shapeOf ds, shapeOf (windowDims ds ss ts), ints ss, ints ts⟩ : SView).toList (ofFn ds f).data =
      .ok ((indices (windowDims ds ss ts)).map (fun idx => f (windowIdx ss ts idx))) := by
  unfold SView.toList
  exact view_toList (windowDims_pos h)
    (fun it => (⟨shapeOf ds, shapeOf (windowDims ds ss ts), ints ss, ints ts⟩ : SView).deref (ofFn ds f).data it) _
    (fun idx hv => by
      unfold SView.deref
      simp only [Bool.false_eq_true, if_false]
      exact sview_read hd h f hv)

/-! ### `Tensor::slice` -/

theorem strides_getElem? (ds : List Nat) (i : Nat) (h : i < ds.length) :
    (strides ds)[i]? = some (ds.drop (i + 1)).prod := by
  induction ds generalizing i with
  | nil => simp at h
  | cons d ds ih =>
    cases i with
    | zero => simp [strides]
    | succ i => simpa [strides] using ih i (by simpa using h)

/-- The block of the buffer at fixed leading coordinates. -/
theorem indices_block (d : Nat) (ds : List Nat) (i : Nat) (hi : i < d) :
    ((indices (d :: ds)).drop (i * ds.prod)).take ds.prod = (indices ds).map (fun x => i :: x) := by
  apply List.ext_getElem?
  intro j
  by_cases hj : j < ds.prod
  · rw [List.getElem?_take_of_lt hj, List.getElem?_drop]
    have := getElem?_flatMap_range d ds.prod (fun i => (indices ds).map (fun is => i :: is)) (by simp) i j hi hj
    simpa [indices] using this
  · rw [List.getElem?_eq_none (by simp; omega), List.getElem?_eq_none (by simp; omega)]

theorem slice_zero {d : Nat} {ds : List Nat} (hd : Dims (d :: ds)) (hne : ds ≠ []) (f : List Nat → T)
    {i : Nat} (hi : i < d) :
    (ofFn (d :: ds) f).slice 0 (i : Int) = .ok (ofFn ds (fun x => f (i :: x))) := by
  have hds : Dims ds := by
    have := dims_eraseIdx hd (axis := 0) (by have := List.length_pos_iff.2 hne; simpa using this)
    simpa using this
  unfold Tensor.slice
  have h1 : rd (ofFn (d :: ds) f).shape.stride 0 = .ok ds.prod := by
    have := rd_some (d := strides (d :: ds)) (n := 0) (x := ds.prod) (by simp [strides])
    simpa using this
  have hlt : i * ds.prod + ds.prod ≤ d * ds.prod := by
    have := Nat.mul_le_mul_right ds.prod (show i + 1 ≤ d from hi)
    rw [Nat.succ_mul] at this; exact this
  have hl := hd.lt
  rw [List.prod_cons] at hl
  rw [h1]
  simp only [Except.bind_ok', Int.toNat_zero, ofFn_shape, shapeOf_dims, ints_length, ints_cons, List.eraseIdx_cons_zero,
    make_dims hds, List.length_cons]
  have hpp := hds.prod_pos
  have h2 : toInt32 ((i : Int) * (ds.prod : Nat)) = ((i * ds.prod : Nat) : Int) := by
    rw [← Nat.cast_mul]
    exact toInt32_small (by omega)
  rw [h2, if_pos (by omega), if_pos (by
    refine ⟨by omega, ?_⟩
    simp only [Int.toNat_natCast, ofFn_data, List.length_map, length_indices, List.prod_cons]
    omega)]
  unfold Tensor.fromPtr
  rw [if_pos (by simp only [Int.toNat_natCast, shapeOf_size, ofFn_data, List.length_drop, List.length_map, length_indices, List.prod_cons]; omega)]
  simp only [Int.toNat_natCast, shapeOf_size, ofFn_data]
  rw [← List.map_drop, ← List.map_take, indices_block d ds i hi, List.map_map]
  rfl

/-! ### Equality -/

theorem map_beq_map {α : Type} [BEq T] (L : List α) (f g : α → T) :
    (L.map f == L.map g) = true ↔ ∀ i ∈ L, (f i == g i) = true := by
  induction L with
  | nil => simp
  | cons x L ih =>
    rw [List.map_cons, List.map_cons, List.cons_beq_cons, Bool.and_eq_true, ih]
    simp

theorem beq_ofFn [BEq T] {a b : List Nat} (f g : List Nat → T)
    [Decidable (a = b ∧ ∀ idx, ValidIdx a idx → (f idx == g idx) = true)] :
    (ofFn a f).beq (ofFn b g) = .ok (decide (a = b ∧ ∀ idx, ValidIdx a idx → (f idx == g idx) = true)) := by
  unfold Tensor.beq Shape.beq
  by_cases hab : a = b
  · subst hab
    simp only [ofFn_shape, shapeOf_dims, beq_self_eq_true, if_true, shapeOf_size, ofFn_data, List.length_map,
      length_indices, le_refl, and_self]
    rw [List.take_of_length_le (by simp), List.take_of_length_le (by simp)]
    congr 1
    rw [Bool.eq_iff_iff, map_beq_map]
    simp only [decide_eq_true_eq, true_and, mem_indices]
  · have : ((ofFn a f).shape.dims == (ofFn b g).shape.dims) = false := by
      simp only [ofFn_shape, shapeOf_dims, beq_eq_false_iff_ne, ne_eq]
      exact fun h => hab (ints_inj h)
    rw [this]
    simp [hab]

/-! ### Printing of shapes -/

theorem natRepr_toList (n : Nat) : (toString (n : Int)).toList = Nat.toDigits 10 n := by
  rw [Int.toString_eq_repr]
  show (Nat.repr n).toList = _
  simp [Nat.repr]

theorem toDigits_inj {m n : Nat} (h : Nat.toDigits 10 m = Nat.toDigits 10 n) : m = n := by
  have := congrArg (fun l => Nat.ofDigitChars 10 l 0) h
  simpa using this

theorem comma_notMem (n : Nat) : ',' ∉ Nat.toDigits 10 n := by
  intro h
  have := Nat.isDigit_of_mem_toDigits (by decide) (by decide) h
  exact absurd this (by decide)

theorem paren_notMem (n : Nat) : ')' ∉ Nat.toDigits 10 n := by
  intro h
  have := Nat.isDigit_of_mem_toDigits (by decide) (by decide) h
  exact absurd this (by decide)

/-- Two words without `c`, each followed by a text starting with a `c`. -/
theorem split_at {α : Type _} {x y : α} {xs ys r s : List α} (c : α → Prop) (h1 : ∀ a ∈ xs, ¬ c a) (h2 : ∀ a ∈ ys, ¬ c a)
    (hx : c x) (hy : c y) (h : xs ++ x :: r = ys ++ y :: s) : xs = ys ∧ x = y ∧ r = s := by
  induction xs generalizing ys with
  | nil =>
    cases ys with
    | nil => simpa using h
    | cons b ys =>
      simp at h
      exact absurd (h.1 ▸ hx) (h2 b (by simp))
  | cons a xs ih =>
    cases ys with
    | nil =>
      simp at h
      exact absurd (h.1 ▸ hy) (h1 a (by simp))
    | cons b ys =>
      simp only [List.cons_append, List.cons.injEq] at h
      have := ih (fun a ha => h1 a (by simp [ha])) (fun a ha => h2 a (by simp [ha])) h.2
      exact ⟨by rw [h.1, this.1], this.2⟩

/-- The printed dimension list followed by the closing parenthesis. -/
def printed : List Nat → List Char
  | [] => [')']
  | [d] => Nat.toDigits 10 d ++ [')']
  | d :: e :: ds => Nat.toDigits 10 d ++ ',' :: ' ' :: printed (e :: ds)

theorem printed_inj {a b : List Nat} (ha : a ≠ []) (hb : b ≠ []) (h : printed a = printed b) : a = b := by
  have nc : ∀ n, ∀ c ∈ Nat.toDigits 10 n, ¬ (c = ',' ∨ c = ')') := by
    rintro n c hc (rfl | rfl)
    · exact comma_notMem n hc
    · exact paren_notMem n hc
  induction a generalizing b with
  | nil => exact absurd rfl ha
  | cons d a ih =>
    cases b with
    | nil => exact absurd rfl hb
    | cons e b =>
      cases a with
      | nil =>
        cases b with
        | nil =>
          simp only [printed] at h
          have := split_at (fun c => c = ',' ∨ c = ')') (nc d) (nc e) (by simp) (by simp) h
          rw [toDigits_inj this.1]
        | cons e' b =>
          simp only [printed] at h
          have := split_at (fun c => c = ',' ∨ c = ')') (nc d) (nc e) (by simp) (by simp) h
          exact absurd this.2.1 (by decide)
      | cons d' a =>
        cases b with
        | nil =>
          simp only [printed] at h
          have := split_at (fun c => c = ',' ∨ c = ')') (nc d) (nc e) (by simp) (by simp) h
          exact absurd this.2.1 (by decide)
        | cons e' b =>
          simp only [printed] at h
          have := split_at (fun c => c = ',' ∨ c = ')') (nc d) (nc e) (by simp) (by simp) h
          rw [toDigits_inj this.1, ih (b := e' :: b) (by simp) (by simp) (by simpa using this.2.2)]

theorem toString_printed {ds : List Nat} (hne : ds ≠ []) :
    (shapeOf ds).toString.toList = '(' :: printed ds := by
  have key : ∀ ds : List Nat, ds ≠ [] →
      (String.intercalate ", " ((ints ds).map (fun d => ToString.toString d))).toList ++ [')'] = printed ds := by
    intro ds
    induction ds with
    | nil => intro h; exact absurd rfl h
    | cons d ds ih =>
      intro _
      cases ds with
      | nil =>
        simp only [ints_cons, ints_nil, List.map_cons, List.map_nil, String.intercalate_singleton, printed, natRepr_toList]
      | cons e ds =>
        have := ih (by simp)
        simp only [ints_cons, List.map_cons, String.intercalate_cons_cons, String.toList_append, natRepr_toList,
          printed, List.append_assoc] at this ⊢
        rw [this]
        rfl
  unfold Shape.toString
  rw [shapeOf_dims, String.toList_append, String.toList_append, ← key ds hne]
  simp

/-! ### Factories -/

theorem identity_ok [Zero T] [One T] {n : Nat} (h : Dims [n, n]) :
    (Tensor.identity (n : Int) : Res (Tensor T)) =
      .ok (ofFn [n, n] (fun idx => if idx.getD 0 0 = idx.getD 1 0 then 1 else 0)) := by
  unfold Tensor.identity
  have hm : Shape.make [(n : Int), (n : Int)] = .ok (shapeOf [n, n]) := by simpa using make_dims h
  rw [hm]
  simp only [Except.bind_ok', forI_nat]
  have h2 : forN n ([] : List T) (fun i out => forN n out (fun j out => (pure (out ++ [if (i : Int) = (j : Int) then 1 else 0]) : Res (List T)))) =
      .ok ((indices [n, n]).map (fun idx => if idx.getD 0 0 = idx.getD 1 0 then (1 : T) else 0)) := by
    refine (forN_indices2 _ _ _ _).trans ?_
    have : ∀ (L : List (List Nat)) (acc : List T), L.foldlM (fun s (idx : List Nat) =>
        (pure (s ++ [if ((idx.getD 0 0 : Nat) : Int) = ((idx.getD 1 0 : Nat) : Int) then 1 else 0]) : Res (List T))) acc =
        .ok (acc ++ L.map (fun idx => if idx.getD 0 0 = idx.getD 1 0 then (1 : T) else 0)) := by
      intro L
      induction L with
      | nil => intro acc; simp
      | cons x L ih =>
        intro acc
        rw [List.foldlM_cons]
        simp only [Except.pure_eq', Except.bind_ok'] at ih ⊢
        rw [ih]
        simp [Nat.cast_inj]
    exact this _ []
  rw [h2]
  rfl

end
end SmartDNN
