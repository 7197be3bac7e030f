import Verif.Proofs.Scatter
import Verif.Spec.Reduce
import Verif.Model.AdvOps

/-! Lemmas about sums over axes. -/

namespace SmartDNN
open Spec

theorem filter_eq_of_nodup {α : Type _} [DecidableEq α] {l : List α} (h : l.Nodup) {a : α} (ha : a ∈ l) :
    l.filter (fun x => decide (x = a)) = [a] := by
  induction l with
  | nil => simp at ha
  | cons b l ih =>
    rw [List.nodup_cons] at h
    by_cases hb : b = a
    · subst hb
      have : l.filter (fun x => decide (x = b)) = [] := by
        rw [List.filter_eq_nil_iff]
        intro x hx hxb
        simp only [decide_eq_true_eq] at hxb
        subst hxb
        exact h.1 hx
      simp [this]
    · have ha' : a ∈ l := by
        rcases List.mem_cons.1 ha with h1 | h1
        · exact absurd h1.symm hb
        · exact h1
      rw [List.filter_cons_of_neg (by simpa using hb)]
      exact ih h.2 ha'

theorem flatMap_if_eq {α : Type _} {d i0 : Nat} (h : i0 < d) (L : List α) :
    (List.range d).flatMap (fun i => if i = i0 then L else []) = L := by
  induction d with
  | zero => omega
  | succ d ih =>
    rw [List.range_succ, List.flatMap_append]
    by_cases hi : i0 < d
    · rw [ih hi]; simp; intro h2; omega
    · have : i0 = d := by omega
      subst this
      have : (List.range i0).flatMap (fun i => if i = i0 then L else []) = [] := by
        rw [List.flatMap_eq_nil_iff]
        intro x hx
        rw [List.mem_range] at hx
        rw [if_neg (by omega)]
      rw [this]; simp

theorem validIdx_eraseIdx {ds idx : List Nat} (hv : ValidIdx ds idx) (k : Nat) :
    ValidIdx (ds.eraseIdx k) (idx.eraseIdx k) := by
  induction hv generalizing k with
  | nil => simp
  | @cons i d is ds hi h ih =>
    cases k with
    | zero => exact h
    | succ k => simpa using ValidIdx.cons.2 ⟨hi, ih k⟩

/-- The index tuples that project onto `j` when `axis` is erased. -/
theorem filter_eraseIdx {ds j : List Nat} {axis : Nat} (ha : axis < ds.length)
    (hj : ValidIdx (ds.eraseIdx axis) j) :
    (indices ds).filter (fun idx => decide (idx.eraseIdx axis = j)) =
      (List.range ds[axis]).map (fun k => j.insertIdx axis k) := by
  induction ds generalizing axis j with
  | nil => simp at ha
  | cons d ds ih =>
    simp only [indices, List.filter_flatMap, List.filter_map]
    cases axis with
    | zero =>
      simp only [List.eraseIdx_cons_zero] at hj
      have : ∀ i, (indices ds).filter ((fun idx => decide (idx.eraseIdx 0 = j)) ∘ fun is => i :: is) = [j] := by
        intro i
        have h2 : ((fun idx : List Nat => decide (idx.eraseIdx 0 = j)) ∘ fun is => i :: is) =
            fun is => decide (is = j) := by
          funext is; rfl
        rw [h2, filter_eq_of_nodup (nodup_indices ds) (mem_indices.2 hj)]
      simp only [this, List.map_cons, List.map_nil, List.getElem_cons_zero, List.insertIdx_zero]
      exact (List.map_eq_flatMap ..).symm
    | succ axis =>
      simp only [List.eraseIdx_cons_succ] at hj
      obtain ⟨j0, js, rfl, hj0, hjs⟩ := validIdx_cons_iff.1 hj
      have ha' : axis < ds.length := by simpa using ha
      have : ∀ i, List.map (fun is => i :: is)
          ((indices ds).filter ((fun idx => decide (idx.eraseIdx (axis + 1) = j0 :: js)) ∘ fun is => i :: is)) =
          if i = j0 then List.map (fun is => j0 :: is) ((indices ds).filter (fun is => decide (is.eraseIdx axis = js))) else [] := by
        intro i
        by_cases hi : i = j0
        · subst hi
          rw [if_pos rfl]
          congr 2
          funext is; simp
        · rw [if_neg hi]
          have h2 : ((fun idx : List Nat => decide (idx.eraseIdx (axis + 1) = j0 :: js)) ∘ fun is => i :: is) =
            fun is => false := by funext is; simp [hi]
          rw [h2]; simp
      simp only [this]
      rw [flatMap_if_eq hj0, ih ha' hjs, List.map_map]
      simp only [List.getElem_cons_succ, List.insertIdx_succ_cons]
      rfl

theorem dims_eraseIdx {ds : List Nat} (hd : Dims ds) {axis : Nat} (hr : 1 < ds.length) :
    Dims (ds.eraseIdx axis) := by
  refine ⟨?_, fun d h => hd.pos d (List.mem_of_mem_eraseIdx h), ?_⟩
  · intro h
    have := congrArg List.length h
    rw [List.length_eraseIdx] at this
    have h0 : ([] : List Nat).length = 0 := rfl
    split_ifs at this <;> omega
  · refine lt_of_le_of_lt ?_ hd.lt
    by_cases ha : axis < ds.length
    · rw [← List.mul_prod_eraseIdx (l := ds) ha (fun _ _ => Nat.mul_comm _ _)]
      exact Nat.le_mul_of_pos_left _ (hd.pos _ (List.getElem_mem _))
    · rw [List.eraseIdx_of_length_le (by omega)]

section
variable {T : Type}

theorem sumAll_ofFn [Zero T] [Add T] (ds : List Nat) (f : List Nat → T) :
    (ofFn ds f).sumAll = .ok (ofFn [1] (fun _ => lsum ((indices ds).map f))) := by
  unfold Tensor.sumAll
  rw [iter_ofFn, make_one]
  simp only [Except.bind_ok', Except.pure_eq', full_shapeOf]
  rfl

/-- Scatter form of `sum(t, axis)`. -/
theorem sumAxis_scatter [Zero T] [Add T] {ds : List Nat} (hd : Dims ds) {axis : Nat} (ha : axis < ds.length)
    (hr : 1 < ds.length) (f : List Nat → T) :
    (ofFn ds f).sumAxis axis = .ok (ofFn (ds.eraseIdx axis) (fun j =>
      lsum (((indices ds).filter (fun idx => decide (idx.eraseIdx axis = j))).map f))) := by
  unfold Tensor.sumAxis
  simp only [ofFn_shape, shapeOf_rank, shapeOf_dims, shapeOf_size]
  rw [if_neg (by omega), if_neg (by omega)]
  have hd' := dims_eraseIdx hd (axis := axis) hr
  rw [← ints_eraseIdx, make_dims hd']
  simp only [Except.bind_ok', full_shapeOf]
  have := odo_forN (σ := Tensor T) hd.pos (fun i is s => do
    let x ← (ofFn ds f).get i
    s.modifyAt (is.eraseIdx axis) (· + x)) (ofFn (ds.eraseIdx axis) (fun _ => (0 : T)))
  simp only [bind_assoc, Except.pure_eq'] at this ⊢
  rw [this]
  have h2 := foldlM_inv (l := indices ds) (f := fun (s : Tensor T) idx => do
    let x ← (ofFn ds f).get (ravel ds idx)
    s.modifyAt ((ints idx).eraseIdx axis) (· + x)) (fun g => ofFn (ds.eraseIdx axis) g)
    (fun g idx => upd g (idx.eraseIdx axis) (g (idx.eraseIdx axis) + f idx)) (fun _ => 0) (by
      intro idx hi g
      have hv := mem_indices.1 hi
      rw [get_ofFn f hv]
      simp only [Except.bind_ok']
      rw [← ints_eraseIdx, modifyAt_ofFn hd' g (validIdx_eraseIdx hv axis)])
  rw [h2]
  simp only [Except.bind_ok']
  congr 2
  funext j
  rw [foldl_upd_acc (indices ds) (fun idx => idx.eraseIdx axis) (fun acc idx => acc + f idx) (fun _ => 0) j]
  unfold lsum
  rw [List.foldl_map]

theorem sumAxis_ofFn [Zero T] [Add T] {ds : List Nat} (hd : Dims ds) {axis : Nat} (ha : axis < ds.length)
    (hr : 1 < ds.length) (f : List Nat → T) :
    (ofFn ds f).sumAxis axis = .ok (ofFn (ds.eraseIdx axis) (fun j => lsum (line ds[axis] axis f j))) := by
  rw [sumAxis_scatter hd ha hr]
  congr 1
  apply ofFn_congr
  intro j hj
  rw [filter_eraseIdx ha hj, List.map_map]
  rfl

theorem sumAxis_rank1 [Zero T] [Add T] (d : Nat) (f : List Nat → T) :
    (ofFn [d] f).sumAxis 0 = (ofFn [d] f).sumAll := by
  unfold Tensor.sumAxis
  simp

theorem sumAxis_err [Zero T] [Add T] {ds : List Nat} {axis : Nat} (ha : ds.length ≤ axis) (f : List Nat → T) :
    (ofFn ds f).sumAxis axis = .error .runtimeError := by
  unfold Tensor.sumAxis
  rw [if_pos (by simpa using ha)]
  rfl

/-! ### `sum(t, axes)` -/

/-- Zero the coordinates on the marked axes. -/
def maskZ (axs : List Bool) (is : List Nat) : List Nat :=
  List.zipWith (fun ax i => if ax then 0 else i) axs is

theorem incrementIndices_spec (ds : List Int) (axs : List Bool) (is rs : List Int)
    (h1 : axs.length = ds.length) (h2 : is.length = ds.length)
    (hr : rs = List.zipWith (fun ax i => if ax then 0 else i) axs is) :
    Tensor.incrementIndices ds axs is rs =
      ((odoStep ds is).1, (odoStep ds is).2,
        List.zipWith (fun ax i => if ax then 0 else i) axs (odoStep ds is).2) := by
  subst hr
  induction ds generalizing axs is with
  | nil =>
    cases axs with
    | nil => cases is with
      | nil => rfl
      | cons _ _ => simp at h2
    | cons _ _ => simp at h1
  | cons d ds ih =>
    cases axs with
    | nil => simp at h1
    | cons ax axs =>
      cases is with
      | nil => simp at h2
      | cons i is =>
        have := ih axs is (by simpa using h1) (by simpa using h2)
        simp only [List.zipWith_cons_cons, Tensor.incrementIndices, odoStep, this]
        rcases odoStep ds is with ⟨b, r⟩
        cases b <;> simp only [Bool.false_eq_true, if_false, if_true]
        · split_ifs <;> simp_all
        · split_ifs <;> simp_all

theorem zipWith_ints (axs : List Bool) (is : List Nat) :
    List.zipWith (fun ax (i : Int) => if ax then 0 else i) axs (ints is) = ints (maskZ axs is) := by
  induction axs generalizing is with
  | nil => simp [maskZ]
  | cons ax axs ih =>
    cases is with
    | nil => simp [maskZ]
    | cons i is =>
      simp only [ints_cons, List.zipWith_cons_cons, maskZ, ih]
      cases ax <;> simp

theorem markAxes_foldl_len (axes : List Nat) (b : List Bool) :
    (axes.foldl (fun (b : List Bool) a => b.set a true) b).length = b.length := by
  induction axes generalizing b with
  | nil => rfl
  | cons a axes ih => simp [ih]

/-- The marked axes. -/
def marks (axes : List Nat) (n : Nat) : List Bool := (List.range n).map (fun i => decide (i ∈ axes))

theorem markAxes_ok {ds axes : List Nat} (h : ∀ a ∈ axes, a < ds.length) :
    Tensor.markAxes ds.length axes (ints ds) = .ok (marks axes ds.length, ints (keepDims axes ds)) := by
  unfold Tensor.markAxes
  have key : ∀ (axes : List Nat), (∀ a ∈ axes, a < ds.length) → ∀ pre : List Nat,
      axes.foldlM (fun (st : List Bool × List Int) axis =>
        if axis ≥ ds.length then Except.error Err.runtimeError
        else Except.ok (st.1.set axis true, st.2.set axis 1)) (marks pre ds.length, ints (keepDims pre ds)) =
      .ok (marks (pre ++ axes) ds.length, ints (keepDims (pre ++ axes) ds)) := by
    intro axes
    induction axes with
    | nil => intro _ pre; simp
    | cons a axes ih =>
      intro h pre
      have ha := h a (by simp)
      simp only [List.foldlM_cons]
      rw [if_neg (by omega)]
      simp only [Except.bind_ok']
      have e1 : (marks pre ds.length).set a true = marks (pre ++ [a]) ds.length := by
        apply List.ext_getElem (by simp [marks])
        intro i h1 h2
        simp only [marks, List.getElem_set, List.getElem_map, List.getElem_range, List.mem_append,
          List.mem_singleton]
        by_cases hi : a = i
        · subst hi; simp
        · have : ¬ i = a := fun h => hi h.symm
          simp [hi, this]
      have e2 : (ints (keepDims pre ds)).set a 1 = ints (keepDims (pre ++ [a]) ds) := by
        rw [← Nat.cast_one, ← ints_set]
        congr 1
        apply List.ext_getElem (by simp [keepDims])
        intro i h1 h2
        simp only [keepDims, List.getElem_set, List.getElem_mapIdx, List.mem_append, List.mem_singleton]
        by_cases hi : a = i
        · subst hi; simp
        · have : ¬ i = a := fun h => hi h.symm
          simp [hi, this]
      rw [e1, e2, ih (fun b hb => h b (by simp [hb]))]
      simp
  have := key axes h []
  simp only [List.nil_append] at this
  rw [← this]
  have e1 : marks [] ds.length = List.replicate ds.length false := by
    apply List.ext_getElem <;> simp [marks]
  have e2 : keepDims [] ds = ds := by
    apply List.ext_getElem <;> simp [keepDims]
  rw [e1, e2]

theorem markAxes_err {ds axes : List Nat} (h : ¬ ∀ a ∈ axes, a < ds.length) (st : List Bool × List Int) :
    axes.foldlM (fun (st : List Bool × List Int) axis =>
        if axis ≥ ds.length then Except.error Err.runtimeError
        else Except.ok (st.1.set axis true, st.2.set axis 1)) st = .error .runtimeError := by
  induction axes generalizing st with
  | nil => simp at h
  | cons a axes ih =>
    simp only [List.foldlM_cons]
    by_cases ha : a < ds.length
    · rw [if_neg (by omega)]
      simp only [Except.bind_ok']
      apply ih
      intro h2
      apply h
      intro b hb
      rcases List.mem_cons.1 hb with rfl | hb
      · exact ha
      · exact h2 b hb
    · rw [if_pos (by omega)]
      rfl

theorem keepDims_valid {ds idx : List Nat} (axes : List Nat) (hv : ValidIdx ds idx) :
    ValidIdx (keepDims axes ds) (maskZ (marks axes ds.length) idx) := by
  have hl := hv.length
  refine List.forall₂_iff_get.2 ⟨by simp [keepDims, maskZ, marks, hl], fun i h1 h2 => ?_⟩
  have := (List.forall₂_iff_get.1 hv).2 i (by simp [maskZ, marks] at h1; omega) (by simpa [keepDims] using h2)
  simp only [keepDims, maskZ, marks, List.get_eq_getElem, List.getElem_zipWith, List.getElem_map,
    List.getElem_range, List.getElem_mapIdx, decide_eq_true_eq] at this ⊢
  split_ifs <;> simp_all

theorem prod_le_of_le {a b : List Nat} (h : List.Forall₂ (· ≤ ·) a b) : a.prod ≤ b.prod := by
  induction h with
  | nil => simp
  | cons h _ ih => simpa using Nat.mul_le_mul h ih

theorem dims_keepDims {ds : List Nat} (axes : List Nat) (hd : Dims ds) : Dims (keepDims axes ds) := by
  refine ⟨?_, ?_, ?_⟩
  · intro h
    have := congrArg List.length h
    simp [keepDims] at this
    exact hd.ne this
  · intro d h
    simp only [keepDims, List.mem_mapIdx] at h
    obtain ⟨i, hi, rfl⟩ := h
    split_ifs
    · omega
    · exact hd.pos _ (List.getElem_mem _)
  · refine lt_of_le_of_lt (prod_le_of_le ?_) hd.lt
    refine List.forall₂_iff_get.2 ⟨by simp [keepDims], fun i h1 h2 => ?_⟩
    simp only [keepDims, List.get_eq_getElem, List.getElem_mapIdx]
    split_ifs
    · exact hd.pos _ (List.getElem_mem _)
    · exact le_rfl

/-! Boolean-mask form of `off`. -/

def offM {α : Type _} : List Bool → List α → List α
  | b :: bs, x :: xs => if b then offM bs xs else x :: offM bs xs
  | _, _ => []

def keepM (m : List Bool) (ds : List Nat) : List Nat := List.zipWith (fun b d => if b then 1 else d) m ds

theorem off_eq_offM {α : Type} (axes : List Nat) (l : List α) :
    off axes l = offM (marks axes l.length) l := by
  unfold off marks
  rw [List.range_eq_range']
  generalize 0 = k
  induction l generalizing k with
  | nil => rfl
  | cons x l ih =>
    rw [List.zipIdx_cons, List.length_cons, List.range'_succ, List.map_cons]
    simp only [offM, List.filter_cons, ← ih]
    by_cases h : k ∈ axes <;> simp [h]

theorem keepDims_eq_keepM (axes : List Nat) (ds : List Nat) :
    keepDims axes ds = keepM (marks axes ds.length) ds := by
  apply List.ext_getElem (by simp [keepDims, keepM, marks])
  intro i h1 h2
  simp [keepDims, keepM, marks]

theorem indices_keepM {m : List Bool} {ds : List Nat} (h : m.length = ds.length) :
    (indices (keepM m ds)).map (offM m) = indices (offM m ds) := by
  induction ds generalizing m with
  | nil =>
    cases m with
    | nil => rfl
    | cons _ _ => simp at h
  | cons d ds ih =>
    cases m with
    | nil => simp at h
    | cons b m =>
      have := ih (m := m) (by simpa using h)
      cases b
      · simp only [keepM, List.zipWith_cons_cons, Bool.false_eq_true, if_false, indices, offM,
          List.map_flatMap, List.map_map]
        congr 1
        funext i
        have e : (offM (false :: m) ∘ fun is => i :: is) = (fun is => i :: is) ∘ offM m := by
          funext is; simp [offM]
        rw [e, ← List.map_map]
        unfold keepM at this
        rw [this]
      · simp only [keepM, List.zipWith_cons_cons, if_true, indices, offM, List.range_one,
          List.flatMap_cons, List.flatMap_nil, List.append_nil, List.map_map]
        have e : (offM (true :: m) ∘ fun is => 0 :: is) = offM m := by
          funext is; simp [offM]
        rw [e]
        exact this

theorem maskZ_eq_iff {m : List Bool} {ds i r : List Nat} (h : m.length = ds.length)
    (hi : ValidIdx ds i) (hr : ValidIdx (keepM m ds) r) : maskZ m i = r ↔ offM m i = offM m r := by
  induction ds generalizing m i r with
  | nil =>
    rw [validIdx_nil_iff] at hi; subst hi
    have hr' : ValidIdx [] r := by simpa [keepM] using hr
    rw [validIdx_nil_iff] at hr'; subst hr'
    simp [maskZ]
  | cons d ds ih =>
    cases m with
    | nil => simp at h
    | cons b m =>
      obtain ⟨i0, is, rfl, hi0, his⟩ := validIdx_cons_iff.1 hi
      simp only [keepM, List.zipWith_cons_cons] at hr
      obtain ⟨r0, rs, rfl, hr0, hrs⟩ := validIdx_cons_iff.1 hr
      have := ih (m := m) (by simpa using h) his hrs
      simp only [maskZ, List.zipWith_cons_cons, offM] at this ⊢
      cases b
      · simp [this]
      · simp only [if_true] at hr0 ⊢
        have : r0 = 0 := by omega
        subst this
        simp [*]

theorem ints_offM (m : List Bool) (ds : List Nat) : ints (offM m ds) = offM m (ints ds) := by
  induction m generalizing ds with
  | nil => simp [offM]
  | cons b m ih =>
    cases ds with
    | nil => simp [offM]
    | cons d ds =>
      simp only [ints_cons, offM]
      cases b <;> simp [ih]

theorem finalShape_eq {m : List Bool} {ds : List Nat} (h : m.length = ds.length) :
    (((ints (keepM m ds)).zip m).filter (fun p => p.1 != 1 || !p.2)).map Prod.fst = ints (offM m ds) := by
  induction ds generalizing m with
  | nil =>
    cases m with
    | nil => rfl
    | cons _ _ => simp at h
  | cons d ds ih =>
    cases m with
    | nil => simp at h
    | cons b m =>
      have := ih (m := m) (by simpa using h)
      unfold keepM at *
      cases b
      · simp only [List.zipWith_cons_cons, ints_cons, List.zip_cons_cons, offM, Bool.false_eq_true, if_false]
        rw [List.filter_cons_of_pos (by simp)]
        simp [this]
      · simp only [List.zipWith_cons_cons, ints_cons, List.zip_cons_cons, offM, if_true]
        rw [List.filter_cons_of_neg (by simp)]
        exact this

theorem offM_valid {m : List Bool} {ds i : List Nat} (hv : ValidIdx ds i) :
    ValidIdx (offM m ds) (offM m i) := by
  induction hv generalizing m with
  | nil => cases m <;> simp [offM]
  | @cons i d is ds hi _ ih =>
    cases m with
    | nil => simp [offM]
    | cons b m =>
      cases b
      · simpa [offM] using ValidIdx.cons.2 ⟨hi, ih⟩
      · simpa [offM] using ih

theorem off_valid {ds i : List Nat} (axes : List Nat) (hv : ValidIdx ds i) :
    ValidIdx (off axes ds) (off axes i) := by
  rw [off_eq_offM, off_eq_offM, hv.length]
  exact offM_valid hv

theorem prod_offM {m : List Bool} {ds : List Nat} (h : m.length = ds.length) :
    (offM m ds).prod = (keepM m ds).prod := by
  rw [← length_indices, ← length_indices, ← indices_keepM h, List.length_map]

theorem mem_offM {α : Type _} {m : List Bool} {l : List α} {x : α} (h : x ∈ offM m l) : x ∈ l := by
  induction m generalizing l with
  | nil => simp [offM] at h
  | cons b m ih =>
    cases l with
    | nil => simp [offM] at h
    | cons y l =>
      cases b
      · simp only [offM, Bool.false_eq_true, if_false, List.mem_cons] at h
        rcases h with rfl | h
        · simp
        · simp [ih h]
      · simp only [offM, if_true] at h
        simp [ih h]

theorem dims_off {ds : List Nat} (axes : List Nat) (hd : Dims ds) (hne : off axes ds ≠ []) :
    Dims (off axes ds) := by
  have hk := dims_keepDims axes hd
  rw [off_eq_offM] at *
  rw [keepDims_eq_keepM] at hk
  refine ⟨hne, fun d h => hd.pos d (mem_offM h), ?_⟩
  rw [prod_offM (by simp [marks])]
  exact hk.lt

theorem sumAxes_step [Zero T] [Add T] {ds : List Nat} (hd : Dims ds) (axes : List Nat)
    (f g : List Nat → T) {idx : List Nat} (hv : ValidIdx ds idx) :
    (do
      let inputIndex ← computeFlatIndex (shapeOf ds) (ints idx)
      let resultIndex ← computeFlatIndex (ofFn (keepDims axes ds) g).shape (ints (maskZ (marks axes ds.length) idx))
      let x ← (ofFn ds f).get (toInt32 inputIndex)
      let y ← (ofFn (keepDims axes ds) g).get (toInt32 resultIndex)
      (ofFn (keepDims axes ds) g).set (toInt32 resultIndex) (y + x)) =
    .ok (ofFn (keepDims axes ds) (upd g (maskZ (marks axes ds.length) idx)
      (g (maskZ (marks axes ds.length) idx) + f idx))) := by
  have hk := dims_keepDims axes hd
  have hv' := keepDims_valid axes hv
  have l1 : ravel ds idx < 2 ^ 31 := lt_trans (ravel_lt hv) hd.lt
  have l2 : ravel (keepDims axes ds) (maskZ (marks axes ds.length) idx) < 2 ^ 31 := lt_trans (ravel_lt hv') hk.lt
  rw [ofFn_shape, computeFlatIndex_valid hd.pos hd.lt64.le hv, computeFlatIndex_valid hk.pos hk.lt64.le hv']
  simp only [Except.bind_ok']
  rw [toInt32_small l1, toInt32_small l2, get_ofFn f hv]
  simp only [Except.bind_ok']
  rw [get_ofFn g hv']
  simp only [Except.bind_ok']
  rw [setFlat_ofFn g hv']

theorem sumAxes_core [Zero T] [Add T] {ds : List Nat} (hd : Dims ds) (axes : List Nat)
    (h : ∀ a ∈ axes, a < ds.length) (f : List Nat → T) :
    (ofFn ds f).sumAxes axes = (do
      let fs ← Shape.make (ints (off axes ds))
      (ofFn (keepDims axes ds) (fun r => lsum (fibre ds axes f r))).reshape fs.dims) := by
  unfold Tensor.sumAxes
  simp only [ofFn_shape, shapeOf_rank, shapeOf_dims, shapeOf_size]
  rw [markAxes_ok h]
  have hk := dims_keepDims axes hd
  have hml : (marks axes ds.length).length = ds.length := by simp [marks]
  simp only [Except.bind_ok']
  rw [make_dims hk]
  simp only [Except.bind_ok', full_shapeOf]
  have hloop := doWhile_indices (S := Tensor T × List Int × List Int) (σ := Tensor T) hd.pos
    (fun st => do
      let inputIndex ← computeFlatIndex (shapeOf ds) st.2.1
      let resultIndex ← computeFlatIndex st.1.shape st.2.2
      let x ← (ofFn ds f).get (toInt32 inputIndex)
      let y ← st.1.get (toInt32 resultIndex)
      let res ← st.1.set (toInt32 resultIndex) (y + x)
      let r := Tensor.incrementIndices (ints ds) (marks axes ds.length) st.2.1 st.2.2
      return (r.1, res, r.2.1, r.2.2))
    (fun s idx => (s, ints idx, ints (maskZ (marks axes ds.length) idx)))
    (fun idx s => do
      let inputIndex ← computeFlatIndex (shapeOf ds) (ints idx)
      let resultIndex ← computeFlatIndex s.shape (ints (maskZ (marks axes ds.length) idx))
      let x ← (ofFn ds f).get (toInt32 inputIndex)
      let y ← s.get (toInt32 resultIndex)
      s.set (toInt32 resultIndex) (y + x))
    (by
      intro s idx hv b r hodo
      simp only [bind_assoc]
      rw [incrementIndices_spec _ _ _ _ (by simp [marks]) (by simp [hv.length]) (zipWith_ints _ _).symm, hodo]
      simp only [zipWith_ints])
    (ofFn (keepDims axes ds) (fun _ => (0 : T))) (ds.prod + 1) (by omega)
  have hz : ints (maskZ (marks axes ds.length) (List.replicate ds.length 0)) = List.replicate ds.length (0 : Int) := by
    have e : List.replicate ds.length (0 : Int) = ints (List.replicate ds.length 0) := by simp [ints_replicate]
    rw [e]
    congr 1
    apply List.ext_getElem (by simp [maskZ, marks])
    intro i h1 h2
    simp [maskZ, marks]
  simp only [hz, ints_replicate, Nat.cast_zero] at hloop
  rw [hloop]
  have h2 := foldlM_inv (l := indices ds) (f := fun (s : Tensor T) idx => do
      let inputIndex ← computeFlatIndex (shapeOf ds) (ints idx)
      let resultIndex ← computeFlatIndex s.shape (ints (maskZ (marks axes ds.length) idx))
      let x ← (ofFn ds f).get (toInt32 inputIndex)
      let y ← s.get (toInt32 resultIndex)
      s.set (toInt32 resultIndex) (y + x)) (fun g => ofFn (keepDims axes ds) g)
    (fun g idx => upd g (maskZ (marks axes ds.length) idx) (g (maskZ (marks axes ds.length) idx) + f idx)) (fun _ => 0) (by
      intro idx hi g
      exact sumAxes_step hd axes f g (mem_indices.1 hi))
  rw [h2]
  simp only [Except.bind_ok', Except.pure_eq']
  have hfs := finalShape_eq (m := marks axes ds.length) (ds := ds) (by simp [marks])
  rw [← keepDims_eq_keepM, ← off_eq_offM] at hfs
  rw [hfs]
  congr 1
  funext fs
  congr 1
  apply ofFn_congr
  intro r hr
  rw [foldl_upd_acc (indices ds) (fun idx => maskZ (marks axes ds.length) idx) (fun acc idx => acc + f idx) (fun _ => 0) r]
  unfold lsum fibre
  rw [List.foldl_map]
  congr 1
  apply List.filter_congr
  intro i hi
  have hv := mem_indices.1 hi
  rw [keepDims_eq_keepM] at hr
  have := maskZ_eq_iff hml hv hr
  rw [decide_eq_decide, this]
  unfold agreeOff
  rw [off_eq_offM, off_eq_offM, hv.length, hr.length]
  simp [keepM, marks]

theorem sumAxes_ofFn [Zero T] [Add T] {ds : List Nat} (hd : Dims ds) (axes : List Nat)
    (h : ∀ a ∈ axes, a < ds.length) (hne : off axes ds ≠ []) (f : List Nat → T) :
    (ofFn ds f).sumAxes axes = .ok (ofFn (off axes ds) (fun j =>
      lsum (((indices ds).filter (fun i => decide (off axes i = j))).map f))) := by
  rw [sumAxes_core hd axes h f]
  have ho := dims_off axes hd hne
  have hml : (marks axes ds.length).length = ds.length := by simp [marks]
  rw [make_dims ho]
  simp only [Except.bind_ok', shapeOf_dims]
  rw [reshaped_eq (ds := keepDims axes ds) _ rfl ho (by
    rw [off_eq_offM, keepDims_eq_keepM, prod_offM hml])]
  unfold ofFn
  congr 2
  have hidx := indices_keepM hml
  rw [← keepDims_eq_keepM, ← off_eq_offM] at hidx
  rw [← hidx, List.map_map]
  apply List.map_congr_left
  intro r hr
  have hl := (mem_indices.1 hr).length
  unfold fibre
  simp only [Function.comp]
  congr 2
  apply List.filter_congr
  intro i _
  rw [decide_eq_decide]
  unfold agreeOff
  rw [off_eq_offM axes r, hl]
  simp [keepDims]

theorem sumAxes_all [Zero T] [Add T] {ds : List Nat} (hd : Dims ds) (axes : List Nat)
    (h : ∀ a ∈ axes, a < ds.length) (hne : off axes ds = []) (f : List Nat → T) :
    (ofFn ds f).sumAxes axes = .error .invalidArgument := by
  rw [sumAxes_core hd axes h f, hne, make_error (by simp)]
  rfl

theorem sumAxes_err [Zero T] [Add T] {ds : List Nat} (axes : List Nat)
    (h : ¬ ∀ a ∈ axes, a < ds.length) (f : List Nat → T) :
    (ofFn ds f).sumAxes axes = .error .runtimeError := by
  unfold Tensor.sumAxes Tensor.markAxes
  simp only [ofFn_shape, shapeOf_rank]
  rw [markAxes_err h]
  rfl

end
end SmartDNN
