import Verif.Props.Datasets
import Verif.Spec.RealFns
import Mathlib.Algebra.Order.Floor.Ring

/-!
# Synthetic datasets (C60) and ASCII rendering (C63)
-/

namespace SmartDNN
open Spec

namespace Spec

/-- State of the random stream after `k` samples, each consuming one input draw and then one noise draw. -/
def streamAfter {γ T : Type} (S : Source γ T) : Nat → γ → γ
  | 0, g => g
  | k + 1, g => (S.noise (S.input (streamAfter S k g)).2).2

/-- The input drawn for sample `k`. -/
def inputDraw {γ T : Type} (S : Source γ T) (g : γ) (k : Nat) : T := (S.input (streamAfter S k g)).1

/-- The noise drawn for sample `k`. -/
def noiseDraw {γ T : Type} (S : Source γ T) (g : γ) (k : Nat) : T :=
  (S.noise (S.input (streamAfter S k g)).2).1

end Spec

section
variable {γ T : Type} [Semiring T]

theorem drawSample_after (S : Source γ T) (g : γ) (k : Nat) :
    drawSample S (streamAfter S k g) =
      ((inputDraw S g k, 2 * inputDraw S g k + 3 + noiseDraw S g k), streamAfter S (k + 1) g) := by
  simp only [drawSample, inputDraw, noiseDraw, streamAfter, Nat.cast_ofNat]

/-- **C60 (samples).**  `generateLinearDataset(n)` returns `max n 0` inputs and targets of shape `(1)`; the
`i`-th target is `2x + 3 + noise` of the `i`-th draw. -/
theorem C60_samples (S : Source γ T) (n : Int) (g : γ) :
    generateLinearDataset S n g =
      .ok ((List.range n.toNat).map (fun i => ofFn [1] (fun _ => inputDraw S g i)),
           (List.range n.toNat).map (fun i => ofFn [1] (fun _ => 2 * inputDraw S g i + 3 + noiseDraw S g i))) := by
  unfold generateLinearDataset forI
  have key := forN_seq (n := n.toNat) (fun _ (st : (List (Tensor T) × List (Tensor T)) × γ) => do
      let ((x, y), g') := drawSample S st.2
      let shape ← Shape.make [1]
      return ((st.1.1 ++ [Tensor.full shape x], st.1.2 ++ [Tensor.full shape y]), g'))
    (fun k => (((List.range k).map (fun i => ofFn [1] (fun _ => inputDraw S g i)),
      (List.range k).map (fun i => ofFn [1] (fun _ => 2 * inputDraw S g i + 3 + noiseDraw S g i))),
      streamAfter S k g)) (by
    intro k _
    simp only [drawSample_after, make_one, Except.bind_ok', Except.pure_eq', full_shapeOf, List.range_succ,
      List.map_append, List.map_cons, List.map_nil])
  simp only [List.range_zero, List.map_nil, streamAfter] at key
  rw [key]
  rfl

example : ∃ d, generateLinearDataset (⟨fun g => ((g : ℤ), g + 1), fun g => (g, g + 1)⟩ : Source ℕ ℤ) 3 10 = .ok d ∧
    d.1 = [ofFn [1] (fun _ => 10), ofFn [1] (fun _ => 12), ofFn [1] (fun _ => 14)] ∧
    d.2 = [ofFn [1] (fun _ => 34), ofFn [1] (fun _ => 40), ofFn [1] (fun _ => 46)] :=
  ⟨_, C60_samples _ _ _, rfl, rfl⟩

/-- **C60 (batches).**  `generateBatchedLinearDataset(n, b)` with `b ≥ 1` returns `⌈n/b⌉` batches, the `k`-th of
shape `(size, 1)` with `size = b` except a last remainder (the sizes add up to `n`, see `batches_exhaust`), and
row `i` of batch `k` is sample `k * b + i` of the stream, whose target is `2x + 3 + noise`. -/
theorem C60_batches (S : Source γ T) {n b : Nat} (hb : 0 < b) (hov : n + b < 2 ^ 31) (g : γ) :
    generateBatchedLinearDataset S n b g =
      .ok ((List.range (batchCount n b)).map (fun k => ofFn [batchSize n b k, 1] (fun idx =>
              inputDraw S g (k * b + idx.getD 0 0))),
           (List.range (batchCount n b)).map (fun k => ofFn [batchSize n b k, 1] (fun idx =>
              2 * inputDraw S g (k * b + idx.getD 0 0) + 3 + noiseDraw S g (k * b + idx.getD 0 0)))) := by
  unfold generateBatchedLinearDataset
  rw [if_neg (by omega)]
  have hc : ((n : Int) + b - 1).tdiv b = ((batchCount n b : Nat) : Int) := by
    unfold batchCount
    rw [Int.natCast_ediv, Int.tdiv_eq_ediv_of_nonneg (by omega)]
    congr 1
    omega
  rw [hc]
  simp only [forI_nat]
  obtain ⟨h1, h2⟩ := ceil_spec (n := n) hb
  have key := forN_seq (n := batchCount n b)
    (fun batch (st : (List (Tensor T) × List (Tensor T)) × γ) => do
      let cur := min (b : Int) ((n : Int) - (batch : Int) * b)
      let shape ← Shape.make [cur, 1]
      let r ← forI cur ((Tensor.zeros shape, Tensor.zeros shape), st.2) (fun i r => do
        let ((x, y), g') := drawSample S r.2
        let input ← r.1.1.setAt [i, 0] x
        let target ← r.1.2.setAt [i, 0] y
        return ((input, target), g'))
      return ((st.1.1 ++ [r.1.1], st.1.2 ++ [r.1.2]), r.2))
    (fun k => (((List.range k).map (fun k => ofFn [batchSize n b k, 1] (fun idx =>
              inputDraw S g (k * b + idx.getD 0 0))),
        (List.range k).map (fun k => ofFn [batchSize n b k, 1] (fun idx =>
              2 * inputDraw S g (k * b + idx.getD 0 0) + 3 + noiseDraw S g (k * b + idx.getD 0 0)))),
      streamAfter S (min (k * b) n) g)) ?_
  · simp only [List.range_zero, List.map_nil, Nat.zero_mul, Nat.zero_min, streamAfter] at key
    rw [key]
    rfl
  · intro k hk
    have hk' := h1 k hk
    have e : min (b : Int) ((n : Int) - (k : Int) * b) = ((batchSize n b k : Nat) : Int) := by
      rw [← min_cast hk']; push_cast; rfl
    have hpos : 0 < batchSize n b k := by unfold batchSize; omega
    have hle : batchSize n b k ≤ n := by unfold batchSize; omega
    have hd : Dims [batchSize n b k, 1] := by
      refine ⟨by simp, by simp [hpos], ?_⟩
      simp only [List.prod_cons, List.prod_nil]
      omega
    have em := make_dims hd
    simp only [ints, List.map_cons, List.map_nil, Nat.cast_one] at em
    simp only [e, em, Except.bind_ok', forI_nat, zeros_shapeOf]
    have inner := forN_seq (n := batchSize n b k) (fun i (r : (Tensor T × Tensor T) × γ) => do
        let ((x, y), g') := drawSample S r.2
        let input ← r.1.1.setAt [(i : Int), 0] x
        let target ← r.1.2.setAt [(i : Int), 0] y
        return ((input, target), g'))
      (fun i => ((ofFn [batchSize n b k, 1] (fun idx => if idx.getD 0 0 < i then
            inputDraw S g (k * b + idx.getD 0 0) else 0),
          ofFn [batchSize n b k, 1] (fun idx => if idx.getD 0 0 < i then
            2 * inputDraw S g (k * b + idx.getD 0 0) + 3 + noiseDraw S g (k * b + idx.getD 0 0) else 0)),
        streamAfter S (k * b + i) g)) (by
      intro i hi
      have hv : ValidIdx [batchSize n b k, 1] [i, 0] := valid2_iff.2 ⟨i, 0, rfl, hi, Nat.one_pos⟩
      simp only [drawSample_after]
      have e1 : ([(i : Int), 0] : List Int) = ints [i, 0] := rfl
      rw [e1, setAt_ofFn hd _ hv]
      simp only [Except.bind_ok']
      rw [setAt_ofFn hd _ hv]
      simp only [Except.bind_ok', Except.pure_eq']
      have upd_eq : ∀ v : Nat → T, ofFn [batchSize n b k, 1]
          (upd (fun idx => if idx.getD 0 0 < i then v (k * b + idx.getD 0 0) else 0) [i, 0] (v (k * b + i))) =
          ofFn [batchSize n b k, 1] (fun idx => if idx.getD 0 0 < i + 1 then v (k * b + idx.getD 0 0) else 0) := by
        intro v
        apply ofFn_congr
        intro idx hv'
        obtain ⟨x, y, rfl, hx, hy⟩ := valid2_iff.1 hv'
        have hy0 : y = 0 := by omega
        subst hy0
        simp only [upd, List.getD_cons_zero, List.cons.injEq, and_true]
        by_cases hxi : x = i
        · subst hxi; simp
        · rw [if_neg hxi]
          by_cases hlt : x < i
          · rw [if_pos hlt, if_pos (by omega)]
          · rw [if_neg hlt, if_neg (by omega)]
      congr 1
      exact Prod.ext (Prod.ext (upd_eq (inputDraw S g))
        (upd_eq (fun p => 2 * inputDraw S g p + 3 + noiseDraw S g p))) rfl)
    simp only [Nat.not_lt_zero, if_false, Nat.add_zero] at inner
    simp only [Nat.min_eq_left hk'.le]
    rw [inner]
    simp only [Except.bind_ok', Except.pure_eq', next_start hk', List.range_succ, List.map_append, List.map_cons,
      List.map_nil]
    have hfin : ∀ v : Nat → T, ofFn [batchSize n b k, 1]
        (fun idx => if idx.getD 0 0 < batchSize n b k then v (k * b + idx.getD 0 0) else 0) =
        ofFn [batchSize n b k, 1] (fun idx => v (k * b + idx.getD 0 0)) := by
      intro v
      apply ofFn_congr
      intro idx hv'
      obtain ⟨x, y, rfl, hx, hy⟩ := valid2_iff.1 hv'
      simp only [List.getD_cons_zero]
      rw [if_pos hx]
    rw [hfin (inputDraw S g), hfin (fun p => 2 * inputDraw S g p + 3 + noiseDraw S g p)]

example : ∃ d, generateBatchedLinearDataset (⟨fun g => ((g : ℤ), g + 1), fun g => (g, g + 1)⟩ : Source ℕ ℤ)
      ((3 : ℕ) : ℤ) ((2 : ℕ) : ℤ) 10 = .ok d ∧
    d.1 = [⟨shapeOf [2, 1], [10, 12]⟩, ⟨shapeOf [1, 1], [14]⟩] ∧
    d.2 = [⟨shapeOf [2, 1], [34, 40]⟩, ⟨shapeOf [1, 1], [46]⟩] :=
  ⟨_, C60_batches _ (by norm_num) (by norm_num) _, rfl, rfl⟩

/-- **C60 (zero batch size).**  A batch size of zero divides by zero. -/
theorem C60_zero_batch (S : Source γ T) (n : Int) (g : γ) :
    generateBatchedLinearDataset S n 0 g = .error .ub := by
  unfold generateBatchedLinearDataset
  rw [if_pos (Or.inl rfl)]
  rfl

end

/-! ### ASCII rendering -/

/-- Truncation towards zero of an exact real number. -/
noncomputable instance : Truncate ℝ where
  trunc := fun x => if 0 ≤ x then ⌊x⌋ else ⌈x⌉

namespace Spec

/-- The intensity level of a value in `[0, 1]`: ten equal bands, 1 belonging to the last one. -/
def IsLevel (v : ℝ) (k : Nat) : Prop := k < 10 ∧ (k : ℝ) ≤ 10 * v ∧ (10 * v < k + 1 ∨ k = 9)

/-- The ramp from blank to full intensity. -/
def ramp : List Char := " .:-=+*#%@".toList

end Spec

/-- Levels are monotone in the value (and therefore unique). -/
theorem isLevel_mono {v v' : ℝ} {k k' : Nat} (h : IsLevel v k) (h' : IsLevel v' k') (hv : v ≤ v') : k ≤ k' := by
  by_contra hlt
  push Not at hlt
  obtain ⟨h1, h2, h3⟩ := h
  obtain ⟨h4, h5, h6⟩ := h'
  rcases h6 with h6 | h6
  · have : (k' : ℝ) + 1 ≤ k := by exact_mod_cast hlt
    linarith
  · omega

theorem asciiChar_level {v : ℝ} (h0 : 0 ≤ v) (h1 : v ≤ 1) :
    ∃ k, IsLevel v k ∧ asciiChar v = .ok (ramp.getD k ' ') := by
  have h10 : 0 ≤ v * ((10 : Nat) : ℝ) := by positivity
  have hle : v * ((10 : Nat) : ℝ) ≤ 10 := by push_cast; linarith
  have hf0 : 0 ≤ ⌊v * ((10 : Nat) : ℝ)⌋ := Int.floor_nonneg.2 h10
  have hf1 : ⌊v * ((10 : Nat) : ℝ)⌋ ≤ 10 := by
    have := Int.floor_le_floor hle
    simpa using this
  obtain ⟨m, hm⟩ : ∃ m : Nat, ⌊v * ((10 : Nat) : ℝ)⌋ = m := ⟨_, (Int.toNat_of_nonneg hf0).symm⟩
  have hm1 : (m : ℝ) ≤ v * ((10 : Nat) : ℝ) := by
    have := Int.floor_le (v * ((10 : Nat) : ℝ)); rw [hm] at this; exact_mod_cast this
  have hm2 : v * ((10 : Nat) : ℝ) < m + 1 := by
    have := Int.lt_floor_add_one (v * ((10 : Nat) : ℝ)); rw [hm] at this; exact_mod_cast this
  have hmle : m ≤ 10 := by rw [hm] at hf1; exact_mod_cast hf1
  push_cast at hm1 hm2
  refine ⟨min m 9, ⟨by omega, ?_, ?_⟩, ?_⟩
  · have : ((min m 9 : Nat) : ℝ) ≤ m := by exact_mod_cast Nat.min_le_left m 9
    linarith
  · by_cases h : m ≤ 9
    · left; rw [Nat.min_eq_left h]; linarith
    · right; omega
  · have ht : Truncate.trunc (MathFn.toFloat v * ((10 : Nat) : ℝ)) = (m : Int) := by
      show (if 0 ≤ v * ((10 : Nat) : ℝ) then ⌊v * ((10 : Nat) : ℝ)⌋ else ⌈v * ((10 : Nat) : ℝ)⌉) = m
      rw [if_pos h10, hm]
    unfold asciiChar
    simp only [ht]
    rw [if_pos (by omega), show min (m : Int) 9 = ((min m 9 : Nat) : Int) by omega]
    apply rd_some
    have : min m 9 < asciiChars.length := by simp [asciiChars]
    rw [List.getElem?_eq_getElem this]
    have hr : ramp = asciiChars := by decide
    rw [hr, List.getD_eq_getElem _ _ this]

/-- **C63 (ASCII rendering).**  For a tensor whose last two dimensions are at least 28 and whose leading
28 × 28 plane has values in `[0, 1]`, the rendering is 28 lines of 28 characters of the ramp, each the character
of the level of its pixel; no access is out of range. -/
theorem C63_rendering {pre : List Nat} {h w : Nat} (hd : Dims (pre ++ [h, w])) (hh : 28 ≤ h) (hw : 28 ≤ w)
    (f : List Nat → ℝ)
    (hf : ∀ i < 28, ∀ j < 28, 0 ≤ f (List.replicate pre.length 0 ++ [i, j]) ∧
      f (List.replicate pre.length 0 ++ [i, j]) ≤ 1) :
    ∃ lev : Nat → Nat → Nat,
      (∀ i < 28, ∀ j < 28, IsLevel (f (List.replicate pre.length 0 ++ [i, j])) (lev i j)) ∧
      toAsciiArt (ofFn (pre ++ [h, w]) f) =
        .ok ((List.range 28).flatMap (fun i =>
          (List.range 28).map (fun j => ramp.getD (lev i j) ' ') ++ ['\n'])) := by
  have hex : ∀ i j, ∃ k, i < 28 → j < 28 → IsLevel (f (List.replicate pre.length 0 ++ [i, j])) k ∧
      asciiChar (f (List.replicate pre.length 0 ++ [i, j])) = .ok (ramp.getD k ' ') := by
    intro i j
    by_cases hij : i < 28 ∧ j < 28
    · obtain ⟨k, h1, h2⟩ := asciiChar_level (hf i hij.1 j hij.2).1 (hf i hij.1 j hij.2).2
      exact ⟨k, fun _ _ => ⟨h1, h2⟩⟩
    · exact ⟨0, fun a b => absurd ⟨a, b⟩ hij⟩
  choose lev hlev using hex
  refine ⟨lev, fun i hi j hj => (hlev i j hi hj).1, ?_⟩
  have hrank : (ofFn (pre ++ [h, w]) f).shape.rank = pre.length + 2 := by
    simp [ofFn_shape]
  unfold toAsciiArt
  rw [hrank, if_neg (by omega)]
  simp only [Nat.add_sub_cancel]
  have key := forN_seq (n := 28) (fun i (oss : List Char) => do
      let oss ← forN 28 oss (fun j oss => do
        let value ← (ofFn (pre ++ [h, w]) f).at_ (List.replicate pre.length 0 ++ [(i : Int), (j : Int)])
        let c ← asciiChar value
        return oss ++ [c])
      return oss ++ ['\n'])
    (fun k => (List.range k).flatMap (fun i =>
          (List.range 28).map (fun j => ramp.getD (lev i j) ' ') ++ ['\n'])) ?_
  rotate_left
  · intro i hi
    have inner := forN_seq (n := 28) (fun j (oss : List Char) => do
        let value ← (ofFn (pre ++ [h, w]) f).at_ (List.replicate pre.length 0 ++ [(i : Int), (j : Int)])
        let c ← asciiChar value
        return oss ++ [c])
      (fun j => (List.range i).flatMap (fun i =>
          (List.range 28).map (fun j => ramp.getD (lev i j) ' ') ++ ['\n']) ++
        (List.range j).map (fun j => ramp.getD (lev i j) ' ')) (by
      intro j hj
      have hv : ValidIdx (pre ++ [h, w]) (List.replicate pre.length 0 ++ [i, j]) := by
        refine List.rel_append ?_ (valid2_iff.2 ⟨i, j, rfl, by omega, by omega⟩)
        have hpos : ∀ d ∈ pre, 0 < d := fun d hdm => hd.pos d (by simp [hdm])
        clear * - hpos
        induction pre with
        | nil => exact List.Forall₂.nil
        | cons a pre ih =>
          exact List.Forall₂.cons (hpos a (by simp)) (ih (fun d hdm => hpos d (by simp [hdm])))
      have e1 : (List.replicate pre.length 0 ++ [(i : Int), (j : Int)] : List Int) =
          ints (List.replicate pre.length 0 ++ [i, j]) := by
        simp [ints]
      rw [e1, at_ofFn hd _ hv]
      simp only [Except.bind_ok', (hlev i j hi hj).2, Except.pure_eq', List.range_succ, List.map_append, List.map_cons,
        List.map_nil, List.append_assoc])
    simp only [List.range_zero, List.map_nil, List.append_nil] at inner
    beta_reduce
    rw [inner]
    simp only [Except.bind_ok', Except.pure_eq', List.range_succ (n := i), List.flatMap_append,
      List.flatMap_cons, List.flatMap_nil, List.append_nil, List.append_assoc]
  simp only [List.range_zero, List.flatMap_nil] at key
  exact key

/-- Of two images, the one that is at least as bright everywhere is rendered with levels at least as high everywhere. -/
theorem C63_monotone {pre : List Nat} {h w : Nat} (hd : Dims (pre ++ [h, w])) (hh : 28 ≤ h) (hw : 28 ≤ w)
    (f f' : List Nat → ℝ)
    (hf : ∀ i < 28, ∀ j < 28, 0 ≤ f (List.replicate pre.length 0 ++ [i, j]) ∧
      f (List.replicate pre.length 0 ++ [i, j]) ≤ f' (List.replicate pre.length 0 ++ [i, j]) ∧
      f' (List.replicate pre.length 0 ++ [i, j]) ≤ 1) :
    ∃ lev lev' : Nat → Nat → Nat, (∀ i < 28, ∀ j < 28, lev i j ≤ lev' i j ∧ lev' i j < 10) ∧
      toAsciiArt (ofFn (pre ++ [h, w]) f) = .ok ((List.range 28).flatMap (fun i =>
        (List.range 28).map (fun j => ramp.getD (lev i j) ' ') ++ ['\n'])) ∧
      toAsciiArt (ofFn (pre ++ [h, w]) f') = .ok ((List.range 28).flatMap (fun i =>
        (List.range 28).map (fun j => ramp.getD (lev' i j) ' ') ++ ['\n'])) := by
  obtain ⟨lev, h1, h2⟩ := C63_rendering hd hh hw f fun i hi j hj =>
    ⟨(hf i hi j hj).1, (hf i hi j hj).2.1.trans (hf i hi j hj).2.2⟩
  obtain ⟨lev', h3, h4⟩ := C63_rendering hd hh hw f' fun i hi j hj =>
    ⟨(hf i hi j hj).1.trans (hf i hi j hj).2.1, (hf i hi j hj).2.2⟩
  exact ⟨lev, lev', fun i hi j hj => ⟨isLevel_mono (h1 i hi j hj) (h3 i hi j hj) (hf i hi j hj).2.1, (h3 i hi j hj).1⟩, h2, h4⟩

/-- A batch of two one-channel images, constant 1/2: every character is '+'. -/
example : ∃ art, toAsciiArt (ofFn [2, 1, 28, 28] (fun _ => (1 / 2 : ℝ))) = .ok art ∧ art.length = 28 * 29 := by
  obtain ⟨lev, _, h⟩ := C63_rendering (pre := [2, 1]) (h := 28) (w := 28) ⟨by simp, by simp, by norm_num⟩ le_rfl le_rfl
    (fun _ => (1 / 2 : ℝ)) (by intros; constructor <;> norm_num)
  refine ⟨_, h, ?_⟩
  simp

/-- **C63 (too few dimensions).**  A tensor of rank below 2 is rejected with `std::length_error`. -/
theorem C63_rank (t : Tensor ℝ) (h : t.shape.rank < 2) : toAsciiArt t = .error .lengthError := by
  unfold toAsciiArt
  rw [if_pos h]

/-- **C63 (values below the range).**  The hypothesis `0 ≤ value` cannot be dropped: a value of `-1/10` or less
(but within the `int` range) indexes before the ramp. -/
theorem C63_negative {v : ℝ} (h : v ≤ -1 / 10) : asciiChar v = .error .ub := by
  have hneg : v * ((10 : Nat) : ℝ) ≤ -1 := by push_cast; linarith
  have ht : Truncate.trunc (MathFn.toFloat v * ((10 : Nat) : ℝ)) ≤ (-1 : Int) := by
    show (if 0 ≤ v * ((10 : Nat) : ℝ) then ⌊v * ((10 : Nat) : ℝ)⌋ else ⌈v * ((10 : Nat) : ℝ)⌉) ≤ -1
    rw [if_neg (by linarith), Int.ceil_le]
    push_cast at hneg ⊢
    exact hneg
  unfold asciiChar
  simp only
  split
  · unfold rd
    rw [if_neg (by omega)]
  · rfl

end SmartDNN
