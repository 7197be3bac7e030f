import Verif.Spec.Datasets
import Verif.Proofs.Datasets
import Verif.Props.Shape

/-!
# Datasets: MNIST files (C57, C58, C59)
-/

namespace SmartDNN
open Spec

theorem readInt_be32 {n : Nat} (hn : n < 2 ^ 31) (rest : List Byte) :
    readInt (be32 n ++ rest) = .ok ((n : Int), rest) := by
  simp only [be32, List.cons_append, List.nil_append, readInt, Fin.val_ofNat]
  have h : n / 2 ^ 24 % 256 * 2 ^ 24 + n / 2 ^ 16 % 256 * 2 ^ 16 + n / 2 ^ 8 % 256 * 2 ^ 8 + n % 256 = n := by
    omega
  rw [h, toInt32_small hn]

theorem readInt_long {file : List Byte} (h : 4 ≤ file.length) :
    ∃ v : Int, readInt file = .ok (v, file.drop 4) ∧ ∀ m : Nat, m < 2 ^ 31 → v = m → file.take 4 = be32 m := by
  match file, h with
  | b0 :: b1 :: b2 :: b3 :: rest, _ =>
    refine ⟨_, rfl, fun m hm hv => ?_⟩
    have h0 := b0.isLt
    have h1 := b1.isLt
    have h2 := b2.isLt
    have h3 := b3.isLt
    have hv' : b0.val * 2 ^ 24 + b1.val * 2 ^ 16 + b2.val * 2 ^ 8 + b3.val = m := by
      unfold toInt32 at hv
      rw [Int.bmod_def] at hv
      split at hv <;> omega
    simp only [List.take_succ_cons, List.take_zero, be32, List.cons.injEq, and_true]
    refine ⟨?_, ?_, ?_, ?_⟩ <;> apply Fin.ext <;> simp only [Fin.val_ofNat] <;> omega

theorem readInt_short {file : List Byte} (h : file.length < 4) : readInt file = .error .ub := by
  match file, h with
  | [], _ => rfl
  | [_], _ => rfl
  | [_, _], _ => rfl
  | [_, _, _], _ => rfl

theorem getD_drop {α : Type _} (l : List α) (a p : Nat) (d : α) : (l.drop a).getD p d = l.getD (a + p) d := by
  simp [List.getD_eq_getElem?_getD, List.getElem?_drop]

theorem min_cast {N b k : Nat} (h : k * b < N) :
    min (b : Int) ((N : Int) - ((k * b : Nat) : Int)) = ((batchSize N b k : Nat) : Int) := by
  unfold batchSize
  omega

theorem takes_eq {limit : Int} {n N : Nat} (h : Takes limit n N) :
    (if limit ≠ -1 then limit else (n : Int)) = N := by
  rcases h with ⟨h1, rfl⟩ | h1
  · simp [h1]
  · rw [h1, if_pos (by omega)]

theorem next_start {N b k : Nat} (h : k * b < N) : min ((k + 1) * b) N = k * b + batchSize N b k := by
  unfold batchSize
  rw [Nat.add_mul]
  omega

section
variable {T : Type} [Field T] [LinearOrder T] [IsStrictOrderedRing T]

theorem pixel_range (q : Byte) :
    ¬ ((q.val : T) / ((255 : Nat) : T) < 0 ∨ 1 < (q.val : T) / ((255 : Nat) : T)) := by
  have h255 : (0 : T) < ((255 : Nat) : T) := by exact_mod_cast (by norm_num : 0 < 255)
  have hq : (q.val : T) ≤ ((255 : Nat) : T) := by exact_mod_cast (by have := q.isLt; omega)
  rw [not_or, not_lt, not_lt]
  exact ⟨by positivity, (div_le_one h255).2 hq⟩

/-- What the image loader returns for any number of data bytes, present or missing. -/
theorem loadImages_any {n r c b N : Nat} {limit : Int} (hn : n < 2 ^ 31) (hr : 0 < r) (hc : 0 < c) (hb : 0 < b)
    (hT : Takes limit n N) (hsz : N = 0 ∨ min b N * (r * c) < 2 ^ 31) (hr' : r < 2 ^ 31) (hc' : c < 2 ^ 31)
    (hov : N + b ≤ 2 ^ 31) (pixels : List Byte) (lab : Option (List Byte)) :
    (MNISTLoader.mk (some (imageFile n r c pixels)) lab b limit).loadImages (T := T) =
      .ok ((List.range (batchCount N b)).map (fun k => ofFn [batchSize N b k, 1, r, c] (fun idx =>
        ((pixels.getD (k * b * (r * c) + ravel [batchSize N b k, 1, r, c] idx) 255).val : T) /
          ((255 : Nat) : T)))) := by
  unfold MNISTLoader.loadImages imageFile
  simp only [List.append_assoc]
  rw [readInt_be32 (by norm_num)]
  simp only [Except.bind_ok']
  rw [readInt_be32 hn]
  simp only [Except.bind_ok']
  rw [readInt_be32 hr']
  simp only [Except.bind_ok']
  rw [readInt_be32 hc']
  simp only [Except.bind_ok', takes_eq hT, Int.toNat_natCast]
  rw [if_neg (by norm_num)]
  simp only [Except.pure_eq']
  obtain ⟨h1, h2⟩ := ceil_spec (n := N) hb
  have key := stepLoop_seq (n := N) (b := b) (N := batchCount N b)
    (fun i (st : List (Tensor T) × List Byte) => do
      let (image, file') ← loadImageBatch (min (b : Int) ((N : Int) - i)) r c st.2
      return (st.1 ++ [image], file'))
    (fun k => ((List.range k).map (fun k => ofFn [batchSize N b k, 1, r, c] (fun idx =>
        ((pixels.getD (k * b * (r * c) + ravel [batchSize N b k, 1, r, c] idx) 255).val : T) /
          ((255 : Nat) : T))), pixels.drop (min (k * b) N * (r * c))))
    h1 h2 hov ?_ (batchCount N b) 0 N (by omega) (ceil_le hb)
  · simp only [Nat.zero_mul, Nat.zero_min, List.range_zero, List.map_nil, List.drop_zero, Nat.cast_zero,
      Except.pure_eq'] at key
    rw [key]
    rfl
  · intro k hk
    have hk' := h1 k hk
    simp only
    rw [min_cast hk']
    have hpos : 0 < batchSize N b k := by unfold batchSize; omega
    have hle : batchSize N b k ≤ min b N := by unfold batchSize; omega
    have hd : Dims [batchSize N b k, 1, r, c] := by
      refine ⟨by simp, ?_, ?_⟩
      · simp [hpos, hr, hc]
      · rcases hsz with h0 | hsz
        · omega
        · simp only [List.prod_cons, List.prod_nil, Nat.mul_one, Nat.one_mul]
          exact lt_of_le_of_lt (Nat.mul_le_mul_right _ hle) hsz
    rw [loadImageBatch_ok hd _ pixel_range]
    simp only [Except.bind_ok', Except.pure_eq', List.drop_drop, next_start hk', Nat.min_eq_left hk'.le, getD_drop,
      List.range_succ, List.map_append, List.map_cons, List.map_nil]
    rw [Nat.add_mul, mul_assoc (batchSize N b k) r c]

/-- `⌈n/b⌉` counts the batches, each of size `b` except a last remainder, and they exhaust the `n` items. -/
theorem batches_exhaust {n b : Nat} (hb : 0 < b) :
    (∀ k, k + 1 < batchCount n b → batchSize n b k = b) ∧ (∀ k < batchCount n b, 0 < batchSize n b k) ∧
      ((List.range (batchCount n b)).map (batchSize n b)).sum = n := by
  obtain ⟨h1, h2⟩ := ceil_spec (n := n) hb
  refine ⟨fun k hk => ?_, fun k hk => ?_, ?_⟩
  · have := h1 (k + 1) hk
    rw [Nat.add_mul] at this
    unfold batchSize
    omega
  · have := h1 k hk
    unfold batchSize
    omega
  · have key : ∀ k ≤ batchCount n b, ((List.range k).map (batchSize n b)).sum = min (k * b) n := by
      intro k
      induction k with
      | zero => simp
      | succ k ih =>
        intro hk
        rw [List.range_succ, List.map_append, List.sum_append, ih (by omega), next_start (h1 k hk)]
        simp [(h1 k hk).le]
    rw [key _ le_rfl]
    exact Nat.min_eq_right h2

omit [LinearOrder T] [IsStrictOrderedRing T] in
/-- Concatenating consecutive blocks of a sequence. -/
theorem concat_blocks {α : Type _} {n b : Nat} (hb : 0 < b) (m : Nat) (v : Nat → α) :
    (List.range (batchCount n b)).flatMap (fun k => (List.range (batchSize n b k * m)).map (fun p => v (k * b * m + p))) =
      (List.range (n * m)).map v := by
  obtain ⟨h1, h2⟩ := ceil_spec (n := n) hb
  have key : ∀ k ≤ batchCount n b,
      (List.range k).flatMap (fun k => (List.range (batchSize n b k * m)).map (fun p => v (k * b * m + p))) =
        (List.range (min (k * b) n * m)).map v := by
    intro k
    induction k with
    | zero => simp
    | succ k ih =>
      intro hk
      rw [List.range_succ, List.flatMap_append, ih (by omega), next_start (h1 k hk), Nat.add_mul, List.range_add,
        Nat.min_eq_left (h1 k hk).le]
      simp
  rw [key _ le_rfl]
  congr 3
  exact Nat.min_eq_right h2

theorem indices_map_ravel {α : Type _} (ds : List Nat) (v : Nat → α) :
    (indices ds).map (fun idx => v (ravel ds idx)) = (List.range ds.prod).map v := by
  apply List.ext_getElem (by simp)
  intro k h1 h2
  have hk : k < ds.prod := by simpa using h2
  obtain ⟨idx, hv, hr, hi⟩ := exists_idx_of_lt hk
  rw [List.getElem?_eq_getElem (by simpa using hk)] at hi
  simp only [List.getElem_map, List.getElem_range]
  rw [Option.some.inj hi, hr]

/-- **C57 (images decode exactly).**  For an image file announcing `n` images of `r × c` pixels, loaded in
batches of `b ≥ 1` with sample limit `limit` (`-1`: none), and holding at least the pixels of the `N` images
taken: `⌈N/b⌉` tensors are returned; the `k`-th has shape `(b, 1, r, c)`, the last one the remainder; and the
concatenation of all tensors in order is pixel/255 of the first `N * r * c` bytes in file order.
(`N + b ≤ 2^31` keeps the `int` loop counter, and `min b N * (r * c) < 2^31` the size of one tensor, in range.) -/
theorem C57_images {n r c b N : Nat} {limit : Int} (hn : n < 2 ^ 31) (hr : 0 < r) (hc : 0 < c) (hb : 0 < b)
    (hT : Takes limit n N) (hsz : N = 0 ∨ min b N * (r * c) < 2 ^ 31) (hr' : r < 2 ^ 31) (hc' : c < 2 ^ 31)
    (hov : N + b ≤ 2 ^ 31) (pixels : List Byte) (hp : N * (r * c) ≤ pixels.length) (lab : Option (List Byte)) :
    ∃ images : List (Tensor T),
      (MNISTLoader.mk (some (imageFile n r c pixels)) lab b limit).loadImages = .ok images ∧
      images.map Tensor.shape = (List.range (batchCount N b)).map (fun k => shapeOf [batchSize N b k, 1, r, c]) ∧
      images.flatMap Tensor.data = (pixels.take (N * (r * c))).map (fun q => (q.val : T) / 255) ∧
      ∀ t ∈ images, ∀ x ∈ t.data, 0 ≤ x ∧ x ≤ 1 := by
  refine ⟨_, loadImages_any hn hr hc hb hT hsz hr' hc' hov pixels lab, ?_, ?_, ?_⟩
  · simp only [List.map_map]
    rfl
  · have e : ∀ k, (ofFn [batchSize N b k, 1, r, c] (fun idx =>
        ((pixels.getD (k * b * (r * c) + ravel [batchSize N b k, 1, r, c] idx) 255).val : T) /
          ((255 : Nat) : T))).data =
        (List.range (batchSize N b k * (r * c))).map (fun p =>
          ((pixels.getD (k * b * (r * c) + p) 255).val : T) / ((255 : Nat) : T)) := by
      intro k
      rw [ofFn_data, indices_map_ravel [batchSize N b k, 1, r, c]
        (fun p => ((pixels.getD (k * b * (r * c) + p) 255).val : T) / ((255 : Nat) : T))]
      simp
    rw [List.flatMap_map]
    simp only [e]
    rw [concat_blocks hb (r * c) (fun p => ((pixels.getD p 255).val : T) / ((255 : Nat) : T))]
    apply List.ext_getElem (by simp [hp])
    intro p h1 h2
    have : p < pixels.length := by simp at h1; omega
    simp [this]
  · intro t ht x hx
    obtain ⟨k, _, rfl⟩ := List.mem_map.1 ht
    rw [ofFn_data] at hx
    obtain ⟨idx, _, rfl⟩ := List.mem_map.1 hx
    have := pixel_range (T := T) (pixels.getD (k * b * (r * c) + ravel [batchSize N b k, 1, r, c] idx) 255)
    rw [not_or, not_lt, not_lt] at this
    exact this

/-- Two batches (sizes 2 and 1) of 1x2 images, with one surplus byte ignored. -/
example : ∃ images : List (Tensor ℚ),
    (MNISTLoader.mk (some (imageFile 3 1 2 [0, 255, 51, 102, 255, 0, 7])) none 2 (-1)).loadImages = .ok images ∧
      images.map Tensor.shape = [shapeOf [2, 1, 1, 2], shapeOf [1, 1, 1, 2]] ∧
      images.flatMap Tensor.data = [0, 1, 1 / 5, 2 / 5, 1, 0] := by
  obtain ⟨im, h1, h2, h3, _⟩ := C57_images (T := ℚ) (n := 3) (r := 1) (c := 2) (b := 2) (N := 3) (limit := -1)
    (by norm_num) (by norm_num) (by norm_num) (by norm_num) (Or.inl ⟨rfl, rfl⟩) (Or.inr (by norm_num))
    (by norm_num) (by norm_num) (by norm_num) [0, 255, 51, 102, 255, 0, 7] (by norm_num) none
  refine ⟨im, h1, h2, ?_⟩
  rw [h3]
  norm_num [show ((255 : Byte).val) = 255 from rfl, show ((51 : Byte).val) = 51 from rfl,
    show ((102 : Byte).val) = 102 from rfl]

omit [IsStrictOrderedRing T] in
/-- **C57 (wrong magic number).**  An image file with a complete header that does not begin with the magic
number 2051 is rejected with `std::runtime_error`, whatever the rest contains. -/
theorem C57_magic (file : List Byte) (h16 : 16 ≤ file.length) (hm : file.take 4 ≠ be32 2051)
    (lab : Option (List Byte)) (b limit : Int) :
    (MNISTLoader.mk (some file) lab b limit).loadImages (T := T) = .error .runtimeError := by
  obtain ⟨v1, e1, hv1⟩ := readInt_long (file := file) (by omega)
  obtain ⟨v2, e2, _⟩ := readInt_long (file := file.drop 4) (by rw [List.length_drop]; omega)
  obtain ⟨v3, e3, _⟩ := readInt_long (file := (file.drop 4).drop 4) (by simp only [List.length_drop]; omega)
  obtain ⟨v4, e4, _⟩ := readInt_long (file := ((file.drop 4).drop 4).drop 4) (by simp only [List.length_drop]; omega)
  unfold MNISTLoader.loadImages
  simp only [e1, e2, e3, e4, Except.bind_ok']
  rw [if_pos (show v1 ≠ 2051 from fun h => hm (hv1 2051 (by norm_num) h))]
  rfl

example : (MNISTLoader.mk (some (be32 2049 ++ be32 1 ++ be32 1 ++ be32 1 ++ [5])) none 1 (-1)).loadImages (T := ℚ) =
    .error .runtimeError :=
  C57_magic _ (by simp [be32]) (by decide) _ _ _

omit [Field T] [LinearOrder T] [IsStrictOrderedRing T] in
/-- The labels are not opened when the images are rejected, and a missing file is rejected with
`std::runtime_error`. -/
theorem C57_missing [Zero T] [One T] [Div T] [NatCast T] [LT T] [DecidableLT T] (b limit : Int)
    (lab : Option (List Byte)) :
    (MNISTLoader.mk none lab b limit).loadData (T := T) = .error .runtimeError := rfl

omit [IsStrictOrderedRing T] in
/-- A batch size below 1 never loops forever: it is rejected with `std::invalid_argument` as soon as there is
one image to load. -/
theorem C57_bad_batch {n r c N : Nat} {b limit : Int} (hn : n < 2 ^ 31) (hr' : r < 2 ^ 31) (hc' : c < 2 ^ 31)
    (hT : Takes limit n N) (hN : 0 < N) (hb : b ≤ 0) (pixels : List Byte) (lab : Option (List Byte)) :
    (MNISTLoader.mk (some (imageFile n r c pixels)) lab b limit).loadImages (T := T) = .error .invalidArgument := by
  unfold MNISTLoader.loadImages imageFile
  simp only [List.append_assoc]
  rw [readInt_be32 (by norm_num)]
  simp only [Except.bind_ok']
  rw [readInt_be32 hn]
  simp only [Except.bind_ok']
  rw [readInt_be32 hr']
  simp only [Except.bind_ok']
  rw [readInt_be32 hc']
  simp only [Except.bind_ok', takes_eq hT, Int.toNat_natCast]
  rw [if_neg (by norm_num)]
  obtain ⟨N, rfl⟩ : ∃ M, N = M + 1 := ⟨N - 1, by omega⟩
  unfold stepLoop
  rw [if_pos (by omega)]
  unfold loadImageBatch
  rw [make_error (by
    rintro ⟨_, h⟩
    have := h (min b (((N + 1 : Nat) : Int) - 0)) (by simp)
    omega)]
  rfl

example : (MNISTLoader.mk (some (imageFile 3 1 2 [0, 255, 51])) none 0 (-1)).loadImages (T := ℚ) =
    .error .invalidArgument :=
  C57_bad_batch (N := 3) (by norm_num) (by norm_num) (by norm_num) (Or.inl ⟨rfl, rfl⟩) (by norm_num) le_rfl _ _

/-! ### Labels -/

omit [IsStrictOrderedRing T] in
/-- State of the label loader after `k` batches. -/
theorem labels_batch {b N : Nat} (hsz : N * 10 < 2 ^ 31) (labels : List Byte) {k : Nat}
    (hk : k * b < N) (hbp : 0 < b) (hq : ∀ p < batchSize N b k, (labels.getD (k * b + p) 255).val < 10) :
    loadLabelBatch (T := T) (min (b : Int) ((N : Int) - ((k * b : Nat) : Int))) (labels.drop (min (k * b) N)) =
      .ok (ofFn [batchSize N b k, 10] (fun idx =>
          if (labels.getD (k * b + idx.getD 0 0) 255).val = idx.getD 1 0 then 1 else 0),
        labels.drop (min ((k + 1) * b) N)) := by
  have hpos : 0 < batchSize N b k := by unfold batchSize; omega
  have hle : batchSize N b k ≤ N := by unfold batchSize; omega
  have hd : Dims [batchSize N b k, 10] := by
    refine ⟨by simp, by simp [hpos], ?_⟩
    simp only [List.prod_cons, List.prod_nil]
    omega
  rw [min_cast hk, loadLabelBatch_ok hd _ (by
    intro p hp
    rw [getD_drop, Nat.min_eq_left hk.le]
    exact hq p hp)]
  simp only [List.drop_drop, next_start hk, Nat.min_eq_left hk.le, getD_drop]

omit [IsStrictOrderedRing T] in
/-- **C58 (labels decode to one-hot rows).**  For a label file announcing `n` labels whose first `N` bytes
(`N` as for the images) are digits 0..9: the loader returns `⌈N/b⌉` tensors with the same batch sizes as the
images, and row `i` of batch `k` is 1 at the digit stored at position `k * b + i` and 0 elsewhere. -/
theorem C58_labels {n b N : Nat} {limit : Int} (hn : n < 2 ^ 31) (hb : 0 < b)
    (hT : Takes limit n N) (hsz : N * 10 < 2 ^ 31)
    (hov : N + b ≤ 2 ^ 31) (labels : List Byte) (hp : N ≤ labels.length)
    (hq : ∀ q ∈ labels.take N, q.val < 10) (img : Option (List Byte)) :
    (MNISTLoader.mk img (some (labelFile n labels)) b limit).loadLabels (T := T) =
      .ok ((List.range (batchCount N b)).map (fun k => ofFn [batchSize N b k, 10] (fun idx =>
        if (labels.getD (k * b + idx.getD 0 0) 0).val = idx.getD 1 0 then 1 else 0))) := by
  have hq' : ∀ p < N, (labels.getD p 255).val < 10 := by
    intro p hpN
    apply hq
    rw [List.getD_eq_getElem _ _ (by omega)]
    exact List.mem_take_iff_getElem.2 ⟨p, by omega, rfl⟩
  unfold MNISTLoader.loadLabels labelFile
  simp only [List.append_assoc]
  rw [readInt_be32 (by norm_num)]
  simp only [Except.bind_ok']
  rw [readInt_be32 hn]
  simp only [Except.bind_ok', takes_eq hT, Int.toNat_natCast]
  rw [if_neg (by norm_num)]
  simp only [Except.pure_eq']
  obtain ⟨h1, h2⟩ := ceil_spec (n := N) hb
  have key := stepLoop_seq (n := N) (b := b) (N := batchCount N b)
    (fun i (st : List (Tensor T) × List Byte) => do
      let (label, file') ← loadLabelBatch (min (b : Int) ((N : Int) - i)) st.2
      return (st.1 ++ [label], file'))
    (fun k => ((List.range k).map (fun k => ofFn [batchSize N b k, 10] (fun idx =>
        if (labels.getD (k * b + idx.getD 0 0) 255).val = idx.getD 1 0 then 1 else 0)),
        labels.drop (min (k * b) N)))
    h1 h2 hov ?_ (batchCount N b) 0 N (by omega) (ceil_le hb)
  · simp only [Nat.zero_mul, Nat.zero_min, List.range_zero, List.map_nil, List.drop_zero, Nat.cast_zero,
      Except.pure_eq'] at key
    rw [key]
    simp only [Except.bind_ok']
    congr 1
    apply List.map_congr_left
    intro k hk
    have hk' := h1 k (List.mem_range.1 hk)
    apply ofFn_congr
    intro idx hv
    obtain ⟨i, j, rfl, hi, hj⟩ := valid2_iff.1 hv
    unfold batchSize at hi
    have hlen : k * b + i < labels.length := by omega
    show (if (labels.getD (k * b + i) 255).val = j then (1 : T) else 0) =
      if (labels.getD (k * b + i) 0).val = j then 1 else 0
    rw [List.getD_eq_getElem _ _ hlen, List.getD_eq_getElem _ _ hlen]
  · intro k hk
    have hk' := h1 k hk
    simp only
    rw [labels_batch hsz labels hk' hb (fun p hp => hq' _ (by unfold batchSize at hp; omega))]
    simp only [Except.bind_ok', Except.pure_eq', List.range_succ, List.map_append, List.map_cons, List.map_nil]

example : (MNISTLoader.mk none (some (labelFile 3 [7, 0, 9])) 2 (-1)).loadLabels (T := ℚ) =
    .ok [ofFn [2, 10] (fun idx => if ([7, 0].getD (idx.getD 0 0) 0) = idx.getD 1 0 then 1 else 0),
         ofFn [1, 10] (fun idx => if 9 = idx.getD 1 0 then 1 else 0)] := by
  have := C58_labels (T := ℚ) (n := 3) (b := 2) (N := 3) (limit := -1) (by norm_num) (by norm_num)
    (Or.inl ⟨rfl, rfl⟩) (by norm_num) (by norm_num) [7, 0, 9] (by simp) (by decide +kernel) none
  refine Eq.trans this ?_
  congr 1

omit [IsStrictOrderedRing T] in
/-- Consequence used by C58 and C59: the first of the `N` requested labels that is missing or above 9 makes
the loader throw `std::out_of_range`. -/
theorem labels_bad {n b N : Nat} {limit : Int} (hn : n < 2 ^ 31) (hb : 0 < b)
    (hT : Takes limit n N) (hsz : N * 10 < 2 ^ 31)
    (hov : N + b ≤ 2 ^ 31) (labels : List Byte) (img : Option (List Byte))
    {p : Nat} (hpN : p < N) (hbad : 10 ≤ (labels.getD p 255).val) (hfirst : ∀ i < p, (labels.getD i 255).val < 10) :
    (MNISTLoader.mk img (some (labelFile n labels)) b limit).loadLabels (T := T) = .error .outOfRange := by
  unfold MNISTLoader.loadLabels labelFile
  simp only [List.append_assoc]
  rw [readInt_be32 (by norm_num)]
  simp only [Except.bind_ok']
  rw [readInt_be32 hn]
  simp only [Except.bind_ok', takes_eq hT, Int.toNat_natCast]
  rw [if_neg (by norm_num)]
  simp only [Except.pure_eq']
  have hdm := Nat.div_add_mod p b
  have hmod := Nat.mod_lt p hb
  have hstart : ∀ k ≤ p / b, k * b < N := by
    intro k hk
    have := Nat.mul_le_mul_right b hk
    rw [mul_comm] at hdm
    omega
  have key := stepLoop_seq_error (n := N) (b := b) (N := p / b) (e := .outOfRange)
    (fun i (st : List (Tensor T) × List Byte) => do
      let (label, file') ← loadLabelBatch (min (b : Int) ((N : Int) - i)) st.2
      return (st.1 ++ [label], file'))
    (fun k => ((List.range k).map (fun k => ofFn [batchSize N b k, 10] (fun idx =>
        if (labels.getD (k * b + idx.getD 0 0) 255).val = idx.getD 1 0 then 1 else 0)),
        labels.drop (min (k * b) N)))
    hstart hov ?_ ?_ (p / b) 0 N (by omega) (by
      have := Nat.div_le_self p b
      omega)
  · simp only [Nat.zero_mul, Nat.zero_min, List.range_zero, List.map_nil, List.drop_zero, Nat.cast_zero,
      Except.pure_eq'] at key
    rw [key]
    rfl
  · intro k hk
    have hk' := hstart k hk.le
    simp only
    rw [labels_batch hsz labels hk' hb (fun i hi => hfirst _ (by
      have : (k + 1) * b ≤ p / b * b := Nat.mul_le_mul_right b hk
      rw [Nat.add_mul] at this
      rw [mul_comm] at hdm
      unfold batchSize at hi
      omega))]
    simp only [Except.bind_ok', Except.pure_eq', List.range_succ, List.map_append, List.map_cons, List.map_nil]
  · have hk' := hstart (p / b) le_rfl
    rw [mul_comm] at hdm
    have hpos : 0 < batchSize N b (p / b) := by unfold batchSize; omega
    have hle : batchSize N b (p / b) ≤ N := by unfold batchSize; omega
    have hd : Dims [batchSize N b (p / b), 10] := by
      refine ⟨by simp, by simp [hpos], ?_⟩
      simp only [List.prod_cons, List.prod_nil]
      omega
    simp only
    rw [min_cast hk', loadLabelBatch_error hd _ (j0 := p % b) (by unfold batchSize; omega) (by
        intro j hj
        rw [getD_drop, Nat.min_eq_left hk'.le]
        exact hfirst _ (by omega)) (by
        rw [getD_drop, Nat.min_eq_left hk'.le, hdm]
        exact hbad)]
    rfl

theorem exists_first (f : Nat → Nat) {p : Nat} (h : 10 ≤ f p) : ∃ q ≤ p, 10 ≤ f q ∧ ∀ i < q, f i < 10 := by
  induction p using Nat.strong_induction_on with
  | _ p ih =>
    by_cases hx : ∃ i < p, 10 ≤ f i
    · obtain ⟨i, hi, hfi⟩ := hx
      obtain ⟨q, hq, h1, h2⟩ := ih i hi hfi
      exact ⟨q, by omega, h1, h2⟩
    · push Not at hx
      exact ⟨p, le_rfl, h, hx⟩

omit [IsStrictOrderedRing T] in
/-- **C58 (bad label).**  A label above 9 among the labels taken makes the loader throw `std::out_of_range`. -/
theorem C58_bad_label {n b N : Nat} {limit : Int} (hn : n < 2 ^ 31) (hb : 0 < b)
    (hT : Takes limit n N) (hsz : N * 10 < 2 ^ 31)
    (hov : N + b ≤ 2 ^ 31) (labels : List Byte) (img : Option (List Byte))
    (hbad : ∃ q ∈ labels.take N, 9 < q.val) :
    (MNISTLoader.mk img (some (labelFile n labels)) b limit).loadLabels (T := T) = .error .outOfRange := by
  obtain ⟨q, hq, h9⟩ := hbad
  obtain ⟨p, hp, rfl⟩ := List.mem_take_iff_getElem.1 hq
  obtain ⟨q, hqp, h1, h2⟩ := exists_first (fun i => (labels.getD i 255).val) (p := p) (by
    rw [List.getD_eq_getElem _ _ (by omega)]
    omega)
  exact labels_bad hn hb hT hsz hov labels img (by omega) h1 h2

example : (MNISTLoader.mk none (some (labelFile 3 [7, 10, 9])) 2 (-1)).loadLabels (T := ℚ) = .error .outOfRange :=
  C58_bad_label (n := 3) (b := 2) (N := 3) (by norm_num) (by norm_num) (Or.inl ⟨rfl, rfl⟩) (by norm_num)
    (by norm_num) [7, 10, 9] none (by decide +kernel)

omit [IsStrictOrderedRing T] in
/-- **C58 (wrong magic number).** -/
theorem C58_magic (file : List Byte) (h8 : 8 ≤ file.length) (hm : file.take 4 ≠ be32 2049)
    (img : Option (List Byte)) (b limit : Int) :
    (MNISTLoader.mk img (some file) b limit).loadLabels (T := T) = .error .runtimeError := by
  obtain ⟨v1, e1, hv1⟩ := readInt_long (file := file) (by omega)
  obtain ⟨v2, e2, _⟩ := readInt_long (file := file.drop 4) (by rw [List.length_drop]; omega)
  unfold MNISTLoader.loadLabels
  simp only [e1, e2, Except.bind_ok']
  rw [if_pos (show v1 ≠ 2049 from fun h => hm (hv1 2049 (by norm_num) h))]
  rfl

example : (MNISTLoader.mk none (some (be32 2051 ++ be32 1 ++ [5])) 1 (-1)).loadLabels (T := ℚ) =
    .error .runtimeError :=
  C58_magic _ (by simp [be32]) (by decide) _ _ _

/-- **C57, C58 (alignment).**  `loadData` on an image and a label file announcing the same number of items
returns as many label tensors as image tensors, the `k`-th of each having the same first dimension, and the
label row of image `k * b + i` is row `i` of label tensor `k`. -/
theorem C58_aligned {n r c b N : Nat} {limit : Int} (hn : n < 2 ^ 31) (hr : 0 < r) (hc : 0 < c) (hb : 0 < b)
    (hT : Takes limit n N) (hsz : N = 0 ∨ min b N * (r * c) < 2 ^ 31) (hr' : r < 2 ^ 31) (hc' : c < 2 ^ 31)
    (hsz' : N * 10 < 2 ^ 31) (hov : N + b ≤ 2 ^ 31) (pixels labels : List Byte) (hp : N * (r * c) ≤ pixels.length)
    (hl : N ≤ labels.length) (hq : ∀ q ∈ labels.take N, q.val < 10) :
    (MNISTLoader.mk (some (imageFile n r c pixels)) (some (labelFile n labels)) b limit).loadData (T := T) =
      .ok ((List.range (batchCount N b)).map (fun k => ofFn [batchSize N b k, 1, r, c] (fun idx =>
          ((pixels.getD ((k * b + idx.getD 0 0) * (r * c) + idx.getD 2 0 * c + idx.getD 3 0) 0).val : T) / 255)),
        (List.range (batchCount N b)).map (fun k => ofFn [batchSize N b k, 10] (fun idx =>
          if (labels.getD (k * b + idx.getD 0 0) 0).val = idx.getD 1 0 then 1 else 0))) := by
  unfold MNISTLoader.loadData
  rw [loadImages_any hn hr hc hb hT hsz hr' hc' hov, C58_labels hn hb hT hsz' hov labels hl hq]
  simp only [Except.bind_ok', Except.pure_eq']
  congr 1
  refine Prod.ext ?_ rfl
  apply List.map_congr_left
  intro k hk
  have hk' := (ceil_spec (n := N) hb).1 k (List.mem_range.1 hk)
  apply ofFn_congr
  intro idx hv
  have hlt := ravel_lt hv
  obtain ⟨i, j, y, z, rfl, hi, hj, hy, hz⟩ := valid4_iff.1 hv
  have e : k * b * (r * c) + ravel [batchSize N b k, 1, r, c] [i, j, y, z] =
      (k * b + i) * (r * c) + y * c + z := by
    have : j = 0 := by omega
    subst this
    simp only [ravel, List.prod_cons, List.prod_nil]
    ring
  have hb2 : k * b * (r * c) + ravel [batchSize N b k, 1, r, c] [i, j, y, z] < pixels.length := by
    refine lt_of_lt_of_le ?_ hp
    simp only [List.prod_cons, List.prod_nil, Nat.mul_one, Nat.one_mul] at hlt
    have h1 : k * b + batchSize N b k ≤ N := by unfold batchSize; omega
    have h2 := Nat.mul_le_mul_right (r * c) h1
    rw [Nat.add_mul] at h2
    omega
  rw [e] at hb2 ⊢
  simp only [List.getD_cons_zero, List.getD_cons_succ]
  rw [List.getD_eq_getElem _ _ hb2, List.getD_eq_getElem _ _ hb2]
  norm_num

example : ∃ d, (MNISTLoader.mk (some (imageFile 3 1 2 [0, 255, 51, 102, 255, 0, 7])) (some (labelFile 3 [7, 0, 9]))
    2 2).loadData (T := ℚ) = .ok d ∧ d.1.length = 1 ∧ d.2.length = 1 := by
  refine ⟨_, C58_aligned (T := ℚ) (n := 3) (r := 1) (c := 2) (b := 2) (N := 2) (limit := 2)
    (by norm_num) (by norm_num) (by norm_num) (by norm_num) (Or.inr rfl) (Or.inr (by norm_num))
    (by norm_num) (by norm_num) (by norm_num) (by norm_num) [0, 255, 51, 102, 255, 0, 7] [7, 0, 9] (by simp)
    (by simp) (by decide +kernel), ?_, ?_⟩ <;> simp [batchCount]

/-! ### Truncated files (C59) -/

omit [IsStrictOrderedRing T] in
/-- **C59 (labels).**  A label file that holds fewer labels than are taken is rejected: the missing byte reads
as 255 and `std::out_of_range` is thrown.  Missing from the full property: image files (see `C59_refuted`) and
headers (see `C59_header_refuted`). -/
theorem C59_labels_partial {n b N : Nat} {limit : Int} (hn : n < 2 ^ 31) (hb : 0 < b)
    (hT : Takes limit n N) (hsz : N * 10 < 2 ^ 31)
    (hov : N + b ≤ 2 ^ 31) (labels : List Byte) (img : Option (List Byte)) (hshort : labels.length < N) :
    (MNISTLoader.mk img (some (labelFile n labels)) b limit).loadLabels (T := T) = .error .outOfRange := by
  obtain ⟨q, hqp, h1, h2⟩ := exists_first (fun i => (labels.getD i 255).val) (p := labels.length) (by
    rw [List.getD_eq_default _ _ le_rfl]
    decide)
  exact labels_bad hn hb hT hsz hov labels img (by omega) h1 h2

example : (MNISTLoader.mk none (some (labelFile 3 [7, 1])) 2 (-1)).loadLabels (T := ℚ) = .error .outOfRange :=
  C59_labels_partial (n := 3) (b := 2) (N := 3) (by norm_num) (by norm_num) (Or.inl ⟨rfl, rfl⟩) (by norm_num)
    (by norm_num) [7, 1] none (by simp)

/-- **C59 refuted for images.**  Every image file whose header is complete is accepted, however many of its
pixels are missing: the missing pixels silently become 1 (white). -/
theorem C59_refuted {n r c b N : Nat} {limit : Int} (hn : n < 2 ^ 31) (hr : 0 < r) (hc : 0 < c) (hb : 0 < b)
    (hT : Takes limit n N) (hsz : N = 0 ∨ min b N * (r * c) < 2 ^ 31) (hr' : r < 2 ^ 31) (hc' : c < 2 ^ 31)
    (hov : N + b ≤ 2 ^ 31) (pixels : List Byte) (hp : pixels.length < N * (r * c)) (lab : Option (List Byte)) :
    ∃ images : List (Tensor T),
      (MNISTLoader.mk (some (imageFile n r c pixels)) lab b limit).loadImages = .ok images ∧
      images.flatMap Tensor.data =
        pixels.map (fun q => (q.val : T) / 255) ++ List.replicate (N * (r * c) - pixels.length) 1 := by
  refine ⟨_, loadImages_any hn hr hc hb hT hsz hr' hc' hov pixels lab, ?_⟩
  have e : ∀ k, (ofFn [batchSize N b k, 1, r, c] (fun idx =>
      ((pixels.getD (k * b * (r * c) + ravel [batchSize N b k, 1, r, c] idx) 255).val : T) /
        ((255 : Nat) : T))).data =
      (List.range (batchSize N b k * (r * c))).map (fun p =>
        ((pixels.getD (k * b * (r * c) + p) 255).val : T) / ((255 : Nat) : T)) := by
    intro k
    rw [ofFn_data, indices_map_ravel [batchSize N b k, 1, r, c]
      (fun p => ((pixels.getD (k * b * (r * c) + p) 255).val : T) / ((255 : Nat) : T))]
    simp
  rw [List.flatMap_map]
  simp only [e]
  rw [concat_blocks hb (r * c) (fun p => ((pixels.getD p 255).val : T) / ((255 : Nat) : T))]
  apply List.ext_getElem (by simp; omega)
  intro p h1 h2
  by_cases h : p < pixels.length
  · simp [h, List.getElem_append_left]
  · rw [List.getElem_append_right (by simpa using h), List.getElem_replicate, List.getElem_map, List.getElem_range,
      List.getD_eq_default _ _ (by omega)]
    exact div_self (by norm_num [show ((255 : Byte).val) = 255 from rfl])

example : ∃ images : List (Tensor ℚ),
    (MNISTLoader.mk (some (imageFile 1 2 2 [0, 51])) none 1 (-1)).loadImages = .ok images ∧
      images.flatMap Tensor.data = [0, 1 / 5, 1, 1] := by
  obtain ⟨im, h1, h2⟩ := C59_refuted (T := ℚ) (n := 1) (r := 2) (c := 2) (b := 1) (N := 1) (limit := -1)
    (by norm_num) (by norm_num) (by norm_num) (by norm_num) (Or.inl ⟨rfl, rfl⟩) (Or.inr (by norm_num))
    (by norm_num) (by norm_num) (by norm_num) [0, 51] (by simp) none
  refine ⟨im, h1, h2.trans ?_⟩
  norm_num [show ((51 : Byte).val) = 51 from rfl, List.replicate]

omit [IsStrictOrderedRing T] in
/-- **C59 refuted for headers.**  A file cut anywhere inside its header (16 bytes for images, 8 for labels) is not rejected either:
uninitialised memory is used, before the magic number is looked at. -/
theorem C59_header_refuted (file : List Byte) (b limit : Int) (o : Option (List Byte)) :
    (file.length < 16 → (MNISTLoader.mk (some file) o b limit).loadImages (T := T) = .error .ub) ∧
      (file.length < 8 → (MNISTLoader.mk o (some file) b limit).loadLabels (T := T) = .error .ub) := by
  have step : ∀ (f : List Byte) (n : Nat), f.length < n + 4 → f.length < 4 ∨ ∃ v rest, readInt f = .ok (v, rest) ∧ rest.length < n := by
    intro f n h
    match f with
    | [] => exact .inl (by simp)
    | [_] => exact .inl (by simp)
    | [_, _] => exact .inl (by simp)
    | [_, _, _] => exact .inl (by simp)
    | b0 :: b1 :: b2 :: b3 :: rest => exact .inr ⟨_, rest, rfl, by simpa using h⟩
  unfold MNISTLoader.loadImages MNISTLoader.loadLabels
  constructor
  · intro h
    rcases step file 12 h with h1 | ⟨v1, r1, e1, h1⟩
    · simp only [readInt_short h1]; rfl
    rcases step r1 8 h1 with h2 | ⟨v2, r2, e2, h2⟩
    · simp only [e1, Except.bind_ok', readInt_short h2]; rfl
    rcases step r2 4 h2 with h3 | ⟨v3, r3, e3, h3⟩
    · simp only [e1, e2, Except.bind_ok', readInt_short h3]; rfl
    · simp only [e1, e2, e3, Except.bind_ok', readInt_short h3]; rfl
  · intro h
    rcases step file 4 h with h1 | ⟨v1, r1, e1, h1⟩
    · simp only [readInt_short h1]; rfl
    · simp only [e1, Except.bind_ok', readInt_short h1]; rfl

/-- An image file that ends after the number of images. -/
example : (MNISTLoader.mk (some [0, 0, 8, 3, 0, 0, 0, 1]) none 1 (-1)).loadImages (T := ℚ) = .error .ub :=
  (C59_header_refuted [0, 0, 8, 3, 0, 0, 0, 1] 1 (-1) none).1 (by simp)

end
end SmartDNN
