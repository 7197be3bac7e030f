import Verif.Proofs.Slices
import Verif.Proofs.Mean

/-!
# Properties C18 - C20, C22, C23: views, slices, comparison, factories
-/

namespace SmartDNN
open Spec

/-! ## C18 -/

/-- A view of a tensor that can be stretched to the target: iterating it from `begin()` to `end()`
terminates and yields the elements at the projections of all target indices in row-major order
(so exactly `r.prod` of them), without reading outside the buffer. -/
theorem C18_enumerates_partial {T : Type} (a r : List Nat) (ha : Dims a) (hr : Dims r) (h : Stretches a r)
    (f : List Nat → T) :
    ∃ v, BView.make (ofFn a f).shape (shapeOf r) = .ok v ∧
      v.toList (ofFn a f).data = .ok ((indices r).map (fun idx => f (proj a idx))) ∧
      ∀ idx, ValidIdx r idx → v.read (ofFn a f).data (ints idx) = .ok (f (proj a idx)) := by
  obtain ⟨v, h1, h2, h3⟩ := bview_make ha.pos ha.lt h
  refine ⟨v, h1, bview_toList hr.pos v h2 h3 h f, fun idx hv => ?_⟩
  have := bview_deref v h2 h3 h f hv
  unfold BView.deref at this
  simpa using this

/-- Dereferencing an exhausted iterator throws `std::out_of_range`, whatever the view. -/
theorem C18_deref_end {T : Type} (v : BView) (buf : List T) (it : ViewIter) (h : it.isEnd = true) :
    v.deref buf it = .error .outOfRange := by
  unfold BView.deref; rw [if_pos h]

theorem broadcastFactorsRev_err (a b : List Nat) (h : ∃ i < b.length, a.getD i 1 ≠ b.getD i 1 ∧ a.getD i 1 ≠ 1) :
    broadcastFactorsRev (ints a) (ints b) = .error .runtimeError := by
  induction b generalizing a with
  | nil => obtain ⟨i, hi, _⟩ := h; simp at hi
  | cons y b ih =>
    obtain ⟨i, hi, h1, h2⟩ := h
    simp only [ints_cons, broadcastFactorsRev]
    have hh : (ints a).headD 1 = ((a.getD 0 1 : Nat) : Int) := by cases a <;> simp
    have ht : (ints a).tail = ints a.tail := by cases a <;> simp
    have hg : ∀ j, a.tail.getD j 1 = a.getD (j + 1) 1 := by intro j; cases a <;> simp
    rw [hh, ht]
    cases i with
    | zero =>
      rw [if_neg (by simp only [List.getD_cons_zero] at h1; exact_mod_cast h1), if_neg (by exact_mod_cast h2)]
      rfl
    | succ i =>
      rw [ih a.tail ⟨i, by simpa using hi, by rw [hg]; simpa using h1, by rw [hg]; exact h2⟩]
      split_ifs <;> rfl

/-- Construction throws `std::runtime_error` unless the source can be stretched to the target (source
rank at most the target's). -/
theorem C18_rejects {T : Type} (a r : List Nat) (hl : a.length ≤ r.length) (h : ¬ Stretches a r) (f : List Nat → T) :
    BView.make (ofFn a f).shape (shapeOf r) = .error .runtimeError := by
  classical
  unfold BView.make
  rw [ofFn_shape, areBroadcastable_shapeOf]
  by_cases hc : Compat a r
  · rw [decide_eq_true hc]
    simp only [Except.bind_ok', Bool.not_true, Bool.false_eq_true, if_false, Except.pure_eq', shapeOf_dims]
    have hx : ∃ i, ¬ (dimR a i = dimR r i ∨ dimR a i = 1) := by
      by_contra hn
      push Not at hn
      exact h ⟨hl, fun i => by by_contra hc; exact hc (by have := hn i; tauto)⟩
    obtain ⟨i, hi⟩ := hx
    have hir : i < r.length := by
      by_contra hge
      exact hi (Or.inr (dimR_of_ge (by omega)))
    rw [← ints_reverse, ← ints_reverse, broadcastFactorsRev_err a.reverse r.reverse
      ⟨i, by simpa using hir, fun h => hi (Or.inl h), fun h => hi (Or.inr h)⟩]
    rfl
  · rw [decide_eq_false hc]; rfl

/-- The claim "construction throws unless the shape can be stretched" fails for a source of larger
rank: a `(2,3)` tensor viewed with target `(3)` is accepted and shows only its first row. -/
theorem C18_larger_rank_refuted : ¬ Stretches [2, 3] [3] ∧
    ∃ v, BView.make (ofFn [2, 3] (fun i => 10 * i.getD 0 0 + i.getD 1 0)).shape (shapeOf [3]) = .ok v ∧
      v.toList (ofFn [2, 3] (fun i => 10 * i.getD 0 0 + i.getD 1 0)).data = .ok [0, 1, 2] := by
  refine ⟨fun h => absurd h.1 (by simp), _, rfl, rfl⟩

example : Stretches [2, 1] [3, 2, 4] := by
  refine ⟨by simp, fun i => ?_⟩
  match i with
  | 0 => exact Or.inr rfl
  | 1 => exact Or.inl rfl
  | i + 2 => exact Or.inr (dimR_of_ge (by simp))

/-! ## C19 -/

/-- Position denoted by a `start` argument: negative values count from the end, and the result is
clamped to the dimension. -/
def normStart (d : Nat) (s : Int) : Nat :=
  if s < 0 then (s + d).toNat else min s.toNat (d - 1)

theorem sliceStart_norm {d : Nat} (hd : 0 < d) (s : Int) : sliceStart (d : Int) s = (normStart d s : Nat) := by
  unfold sliceStart normStart
  dsimp only
  split_ifs <;> omega

theorem normStart_lt {d : Nat} (hd : 0 < d) (s : Int) : normStart d s < d := by
  unfold normStart; split_ifs <;> omega

theorem winOK_norm {ds ts : List Nat} (hd : ∀ d ∈ ds, 0 < d) (ht : ∀ t ∈ ts, 0 < t) (starts : List Int)
    (hs : starts.length = ds.length) (hl : ts.length = ds.length) :
    WinOK ds (List.zipWith normStart ds starts) ts := by
  induction ds generalizing starts ts with
  | nil =>
    obtain rfl := List.length_eq_zero_iff.1 hs
    obtain rfl := List.length_eq_zero_iff.1 hl
    exact WinOK.nil
  | cons d ds ih =>
    cases starts with
    | nil => simp at hs
    | cons s starts =>
      cases ts with
      | nil => simp at hl
      | cons t ts =>
        exact WinOK.cons (normStart_lt (hd d (by simp)) s) (ht t (by simp))
          (ih (fun x hx => hd x (by simp [hx])) (fun x hx => ht x (by simp [hx])) starts (by simpa using hs)
            (by simpa using hl))

theorem sview_make_norm {ds ts : List Nat} (hd : Dims ds) (ht : ∀ t ∈ ts, 0 < t) (slices : List (Int × Int))
    (hs : slices.length = ds.length) (hl : ts.length = ds.length) :
    SView.make (shapeOf ds) slices (ints ts) =
      .ok ⟨shapeOf ds, shapeOf (windowDims ds (List.zipWith normStart ds (slices.map Prod.fst)) ts),
        ints (List.zipWith normStart ds (slices.map Prod.fst)), ints ts⟩ := by
  have hw := winOK_norm hd.pos ht (slices.map Prod.fst) (by simpa using hs) hl
  have key := sview_make hd hw (slices.map Prod.snd) (by simpa using hs)
  rw [← key]
  unfold SView.make
  have hz : List.zipWith (fun d (p : Int × Int) => sliceStart d p.1) (shapeOf ds).dims slices =
      List.zipWith (fun d (p : Int × Int) => sliceStart d p.1) (shapeOf ds).dims
        ((ints (List.zipWith normStart ds (slices.map Prod.fst))).zip (slices.map Prod.snd)) := by
    have hp := hd.pos
    clear key hw hd hl ht
    simp only [shapeOf_dims]
    induction ds generalizing slices with
    | nil => simp
    | cons d ds ih =>
      cases slices with
      | nil => simp
      | cons p slices =>
        have hd0 := hp d (by simp)
        simp only [List.map_cons, List.zipWith_cons_cons, ints_cons, List.zip_cons_cons]
        rw [ih slices (by simpa using hs) (fun x hx => hp x (by simp [hx])), sliceStart_norm hd0 p.1,
          sliceStart_nat (normStart_lt hd0 p.1)]
  have hlen : slices.length = ((ints (List.zipWith normStart ds (slices.map Prod.fst))).zip
      (slices.map Prod.snd)).length := by
    simp [hs]
  rw [hz, ← hlen]

/-- For positive steps and any `(start, end)` pairs the view exposes, in every dimension, the positions
`start, start + step, ...` up to the END OF THE DIMENSION: it enumerates exactly those elements once, in
row-major order; reads return and writes change exactly the addressed element.
(Partial: the `end` of each pair plays no role, see `C19_end_refuted`.) -/
theorem C19_window_partial {T : Type} (ds ts : List Nat) (hd : Dims ds) (slices : List (Int × Int))
    (hs : slices.length = ds.length) (hl : ts.length = ds.length) (ht : ∀ t ∈ ts, 0 < t) (f : List Nat → T) :
    let ss := List.zipWith normStart ds (slices.map Prod.fst)
    ∃ v, SView.make (ofFn ds f).shape slices (ints ts) = .ok v ∧ v.shape = shapeOf (windowDims ds ss ts) ∧
      v.toList (ofFn ds f).data = .ok ((indices (windowDims ds ss ts)).map (fun idx => f (windowIdx ss ts idx))) ∧
      ∀ idx, ValidIdx (windowDims ds ss ts) idx →
        ValidIdx ds (windowIdx ss ts idx) ∧
        v.read (ofFn ds f).data (ints idx) = .ok (f (windowIdx ss ts idx)) ∧
        ∀ x, v.set (ofFn ds f).data (ints idx) x = .ok (ofFn ds (upd f (windowIdx ss ts idx) x)).data := by
  intro ss
  have hw := winOK_norm hd.pos ht (slices.map Prod.fst) (by simpa using hs) hl
  exact ⟨_, sview_make_norm hd ht slices hs hl, rfl, sview_toList hd hw f,
    fun idx hv => ⟨windowIdx_valid hw hv, sview_read hd hw f hv, fun x => sview_set hd hw f hv x⟩⟩

/-- The window contains exactly the positions `s + i * t` below the dimension, each once. -/
theorem window_positions (d s t i : Nat) (hs : s < d) (ht : 0 < t) :
    i < windowCount d s t ↔ s + i * t < d := window_lt hs ht

/-- Distinct window entries are distinct elements. -/
theorem window_injective (ds ts : List Nat) (hd : Dims ds) (slices : List (Int × Int))
    (hs : slices.length = ds.length) (hl : ts.length = ds.length) (ht : ∀ t ∈ ts, 0 < t) (x y : List Nat) :
    let ss := List.zipWith normStart ds (slices.map Prod.fst)
    ValidIdx (windowDims ds ss ts) x → ValidIdx (windowDims ds ss ts) y →
      windowIdx ss ts x = windowIdx ss ts y → x = y := by
  intro ss hx hy h
  exact windowIdx_inj (winOK_norm hd.pos ht (slices.map Prod.fst) (by simpa using hs) hl) hx hy h

/-- The claimed half-open window fails: of a 3-element tensor, the slice `[0, 1)` with step 1 should show
one element and shows all three. -/
theorem C19_end_refuted : ∃ v, SView.make (ofFn [3] (fun i => i.getD 0 0)).shape [(0, 1)] [1] = .ok v ∧
    v.toList (ofFn [3] (fun i => i.getD 0 0)).data = .ok [0, 1, 2] ∧ windowDims [1] [0] [1] = [1] :=
  ⟨_, rfl, rfl, rfl⟩

/-- A wrong number of slices or steps throws `std::runtime_error`. -/
theorem C19_rejects (ds : List Nat) (slices : List (Int × Int)) (steps : List Int)
    (h : slices.length ≠ ds.length ∨ steps.length ≠ ds.length) :
    SView.make (shapeOf ds) slices steps = .error .runtimeError := by
  unfold SView.make
  rw [if_pos (by simpa using h)]
  rfl

example : Dims [4, 5] ∧ windowDims [4, 5] (List.zipWith normStart [4, 5] [1, -3]) [2, 1] = [2, 3] :=
  ⟨⟨by simp, by simp, by simp⟩, by rfl⟩

/-! ## C20 -/

/-- `slice(0, i)` of a tensor of rank >= 2 is the sub-tensor at leading coordinate `i`.
(Partial: for `dim >= 1` the claim fails, see `C20_refuted`.) -/
theorem C20_leading_partial {T : Type} (d : Nat) (ds : List Nat) (hd : Dims (d :: ds)) (hne : ds ≠ [])
    (f : List Nat → T) (i : Nat) (hi : i < d) :
    (ofFn (d :: ds) f).slice 0 (i : Int) = .ok (ofFn ds (fun x => f (i :: x))) := slice_zero hd hne f hi

/-- `slice(1, 0)` of a 2 x 2 tensor: the first column was asked for, the first row is returned. -/
theorem C20_refuted :
    (ofFn [2, 2] (fun i => 10 * i.getD 0 0 + i.getD 1 0)).slice 1 0 = .ok ⟨shapeOf [2], [0, 1]⟩ ∧
    (ofFn [2] (fun x => 10 * x.getD 0 0)).data = [0, 10] := ⟨rfl, rfl⟩

theorem prod_eraseIdx_ge {ds : List Nat} {k : Nat} (hk : k < ds.length) (hp : ∀ d ∈ ds, 0 < d) (i : Nat)
    (hi : i < ds[k]) :
    i * (ds.drop (k + 1)).prod + (ds.eraseIdx k).prod ≤ ds.prod := by
  have h1 : ds.prod = (ds.take k).prod * (ds[k] * (ds.drop (k + 1)).prod) := by
    conv_lhs => rw [← List.take_append_drop k ds, List.prod_append, List.drop_eq_getElem_cons hk, List.prod_cons]
  have h2 : (ds.eraseIdx k).prod = (ds.take k).prod * (ds.drop (k + 1)).prod := by
    rw [List.eraseIdx_eq_take_drop_succ, List.prod_append]
  have h3 : 0 < (ds.take k).prod := prod_pos_of (fun d hd => hp d (List.mem_of_mem_take hd))
  rw [h1, h2]
  obtain ⟨e, he⟩ : ∃ e, ds[k] = i + 1 + e := ⟨ds[k] - (i + 1), by omega⟩
  rw [he]
  generalize (ds.take k).prod = P at *
  generalize (ds.drop (k + 1)).prod = S at *
  have : i * S ≤ P * (i * S) := Nat.le_mul_of_pos_left _ h3
  calc i * S + P * S ≤ P * (i * S) + P * S := by omega
    _ ≤ P * (i * S) + P * S + P * (e * S) := Nat.le_add_right _ _
    _ = P * ((i + 1 + e) * S) := by ring

/-- For every valid dimension and index the call succeeds, the result has the dimension removed, and it
holds the contiguous run of elements from flat position `index * stride(dim)`: nothing outside the buffer
is read (this half of the claim holds for every `dim`). -/
theorem C20_in_bounds {T : Type} (ds : List Nat) (hd : Dims ds) (hr : 2 ≤ ds.length) (k : Nat)
    (hk : k < ds.length) (i : Nat) (hi : i < ds[k]) (f : List Nat → T) :
    (ofFn ds f).slice (k : Int) (i : Int) =
      .ok ⟨shapeOf (ds.eraseIdx k),
        ((ofFn ds f).data.drop (i * (ds.drop (k + 1)).prod)).take (ds.eraseIdx k).prod⟩ := by
  have hds : Dims (ds.eraseIdx k) := dims_eraseIdx hd (by omega)
  have hb := prod_eraseIdx_ge hk hd.pos i hi
  have hl := hd.lt
  have hpp := hds.prod_pos
  unfold Tensor.slice
  rw [ofFn_shape, show rd (shapeOf ds).stride (k : Int) = .ok (ds.drop (k + 1)).prod from
    rd_some (strides_getElem? ds k hk)]
  simp only [Except.bind_ok', Int.toNat_natCast]
  have h2 : toInt32 ((i : Int) * ((ds.drop (k + 1)).prod : Nat)) = ((i * (ds.drop (k + 1)).prod : Nat) : Int) := by
    rw [← Nat.cast_mul]
    exact toInt32_small (by omega)
  have he : (shapeOf ds).dims.eraseIdx k = ints (ds.eraseIdx k) := by
    simp [ints, List.eraseIdx_map]
  rw [h2, he, make_dims hds, if_pos (by simpa using hk)]
  simp only [Except.bind_ok', Int.toNat_natCast]
  have hlen : (ofFn ds f).data.length = ds.prod := by simp
  rw [if_pos ⟨by omega, by omega⟩]
  unfold Tensor.fromPtr
  rw [if_pos (by simp only [shapeOf_size, List.length_drop, hlen]; omega)]
  rfl

example : Dims [2, 3] ∧ 1 < [2, 3][0] := ⟨⟨by simp, by simp, by simp⟩, by simp⟩

/-! ## C22 -/

/-- `==` on tensors holds exactly if the dimensions are equal and all elements compare `==`. -/
theorem C22_comparison {T : Type} [BEq T] (a b : List Nat) (f g : List Nat → T) :
    ∃ r, (ofFn a f).beq (ofFn b g) = .ok r ∧
      (r = true ↔ a = b ∧ ∀ idx, ValidIdx a idx → (f idx == g idx) = true) := by
  classical
  exact ⟨_, beq_ofFn f g, by simp⟩

/-- If the elements' `==` decides their equality, then `==` on tensors decides equality of dimensions and of all elements. -/
theorem C22_equality {T : Type} [BEq T] [LawfulBEq T] (a b : List Nat) (f g : List Nat → T) :
    ∃ r, (ofFn a f).beq (ofFn b g) = .ok r ∧
      (r = true ↔ a = b ∧ ∀ idx, ValidIdx a idx → f idx = g idx) := by
  obtain ⟨r, h1, h2⟩ := C22_comparison a b f g
  exact ⟨r, h1, by simpa using h2⟩

/-- A tensor with an element that differs from itself (a NaN) differs from itself. -/
theorem C22_nan {T : Type} [BEq T] (ds : List Nat) (f : List Nat → T) {idx : List Nat} (hv : ValidIdx ds idx)
    (hn : (f idx == f idx) = false) : (ofFn ds f).beq (ofFn ds f) = .ok false ∧ (ofFn ds f).bne (ofFn ds f) = .ok true := by
  obtain ⟨r, h1, h2⟩ := C22_comparison ds ds f f
  have : r = false := by
    rw [← Bool.not_eq_true, h2]
    intro h
    rw [h.2 idx hv] at hn
    cases hn
  subst this
  refine ⟨h1, ?_⟩
  unfold Tensor.bne
  rw [h1]
  rfl

/-- `!=` is the negation. -/
theorem C22_inequality {T : Type} [BEq T] (a b : List Nat) (f g : List Nat → T) :
    ∃ r, (ofFn a f).bne (ofFn b g) = .ok r ∧
      (r = true ↔ ¬ (a = b ∧ ∀ idx, ValidIdx a idx → (f idx == g idx) = true)) := by
  obtain ⟨r, h1, h2⟩ := C22_comparison a b f g
  refine ⟨!r, ?_, by rw [← h2]; cases r <;> simp⟩
  unfold Tensor.bne
  rw [h1]
  rfl

/-- The printed form of a shape determines the shape. -/
theorem C22_printed_shape (a b : List Nat) (ha : a ≠ []) (hb : b ≠ [])
    (h : (shapeOf a).toString = (shapeOf b).toString) : a = b := by
  have h1 := congrArg String.toList h
  rw [toString_printed ha, toString_printed hb, List.cons.injEq] at h1
  exact printed_inj ha hb h1.2

/-- `==` on shapes compares the dimension lists. -/
theorem C22_shape_equality (a b : List Nat) : (shapeOf a).beq (shapeOf b) = true ↔ a = b := by
  unfold Shape.beq
  simp only [shapeOf_dims, beq_iff_eq]
  exact ⟨ints_inj, fun h => by rw [h]⟩

example : (shapeOf [12, 3]).toString = "(12, 3)" := by rfl

/-! ## C23 -/

/-- `zeros(shape)` holds 0 everywhere ... -/
theorem C23_zeros {T : Type} [Zero T] (ds : List Nat) : (Tensor.zeros (shapeOf ds) : Tensor T) = ofFn ds (fun _ => 0) :=
  full_shapeOf ds 0

/-- `fill(value)` replaces every element of any tensor and keeps its shape. -/
theorem C23_fill {T : Type} (ds : List Nat) (f : List Nat → T) (v : T) : (ofFn ds f).fill v = .ok (ofFn ds fun _ => v) := by
  unfold Tensor.fill
  rw [if_pos (by simp)]
  refine congrArg Except.ok ?_
  rw [← full_shapeOf ds v]
  simp [Tensor.full]

/-- ... and `ones(shape)` holds 1. -/
theorem C23_ones {T : Type} [One T] (ds : List Nat) : (Tensor.ones (shapeOf ds) : Tensor T) = ofFn ds (fun _ => 1) :=
  full_shapeOf ds 1

/-- `identity(n)`: 1 exactly on the diagonal. -/
theorem C23_identity {T : Type} [Zero T] [One T] (n : Nat) (h : Dims [n, n]) :
    (Tensor.identity (n : Int) : Res (Tensor T)) =
      .ok (ofFn [n, n] (fun idx => if idx.getD 0 0 = idx.getD 1 0 then 1 else 0)) := identity_ok h

/-- `zeros(n)`, `ones(n)` for `n > 0`. -/
theorem C23_counted {T : Type} [Zero T] [One T] (n : Nat) (h : Dims [n]) :
    (Tensor.zerosN (n : Int) : Res (Tensor T)) = .ok (ofFn [n] (fun _ => 0)) ∧
    (Tensor.onesN (n : Int) : Res (Tensor T)) = .ok (ofFn [n] (fun _ => 1)) := by
  have hm : Shape.make [(n : Int)] = .ok (shapeOf [n]) := make_dims h
  unfold Tensor.zerosN Tensor.onesN
  rw [hm]
  simp only [Except.bind_ok', full_shapeOf]
  exact ⟨rfl, rfl⟩

/-- `zeros(n)`, `ones(n)`, `identity(n)` with `n <= 0` throw `std::invalid_argument`. -/
theorem C23_rejects {T : Type} [Zero T] [One T] (n : Int) (h : n ≤ 0) :
    (Tensor.zerosN n : Res (Tensor T)) = .error .invalidArgument ∧
    (Tensor.onesN n : Res (Tensor T)) = .error .invalidArgument ∧
    (Tensor.identity n : Res (Tensor T)) = .error .invalidArgument := by
  unfold Tensor.zerosN Tensor.onesN Tensor.identity
  rw [make_error (dims := [n]) (by rintro ⟨_, h2⟩; have := h2 n (by simp); omega),
    make_error (dims := [n, n]) (by rintro ⟨_, h2⟩; have := h2 n (by simp); omega)]
  exact ⟨rfl, rfl, rfl⟩

/-- A `(shape, values)` constructor stores the values in order. -/
theorem C23_values {T : Type} [Zero T] (ds : List Nat) (values : List T) (h : values.length = ds.prod) :
    Tensor.fromList (shapeOf ds) values = .ok ⟨shapeOf ds, values⟩ ∧
    ∀ idx, ValidIdx ds idx → ds.prod < 2 ^ 31 → ∀ (hp : ∀ d ∈ ds, 0 < d),
      (⟨shapeOf ds, values⟩ : Tensor T).at_ (ints idx) = rd values (ravel ds idx : Nat) := by
  refine ⟨?_, ?_⟩
  · unfold Tensor.fromList
    rw [if_pos (by simp [h])]
    simp [h]
  · intro idx hv hl hp
    unfold Tensor.at_
    rw [computeFlatIndex_valid hp (le_trans hl.le (by decide)) hv]
    rfl

example : (Tensor.identity 2 : Res (Tensor Int)) = .ok ⟨shapeOf [2, 2], [1, 0, 0, 1]⟩ := by rfl
example : Tensor.fromList (shapeOf [2, 2]) [1, 2, 3, 4] = .ok ⟨shapeOf [2, 2], [1, 2, 3, 4]⟩ := by rfl

end SmartDNN
