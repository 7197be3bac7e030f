import Verif.Proofs.Whole
import Verif.Props.Simd

/-!
# C108: small whole numbers are computed exactly
-/

namespace SmartDNN
open Net Spec

section
variable {ρ ρ' : Type} {rd : ℝ → ℝ} {P : ℝ} (hr : ∀ n : ℤ, |(n : ℝ)| < P → rd n = n)
include hr

/-- A model whose parameters and input are whole numbers, in an arithmetic that does not round whole numbers below `P`: as long as the
sums of absolute values inside every dense layer and convolution stay below `P`, the prediction is exactly what exact arithmetic gives,
number by number, and it throws exactly if the exact computation does. -/
theorem C108_predict (E : Engine ρ (Rounded rd)) (E' : Engine ρ' ℝ) {net : Net ρ (Rounded rd)} {net' : Net ρ' ℝ}
    (hn : List.Forall₂ WholeLayer net.layers net'.layers) {x : Tensor (Rounded rd)} {x' : Tensor ℝ} (hx : SameWhole x x')
    (hf : AllKeepSmall E' P net'.layers x' net'.rng) : SameOutcome SameWhole (Net.predict E x net).1 (Net.predict E' x' net').1 :=
  whole_layers hr E E' hn hx net.rng net'.rng hf

/-- Matrix products of whole numbers, of all ranks `matmul` takes. -/
theorem C108_matmul {a b : Tensor (Rounded rd)} {a' b' : Tensor ℝ} (ha : SameWhole a a') (hb : SameWhole b b')
    (hm : ∀ s, (magnitudes a').matmul (magnitudes b') = .ok s → ∀ v ∈ s.data, v < P) : SameOutcome SameWhole (a.matmul b) (a'.matmul b') :=
  whole_matmul hr ha hb hm

omit hr in
/-- When the sums of a dense layer on a batch of rows stay below `P`. -/
theorem keepsSmall_dense {b n m : Nat} (h : Dims [b, m]) (w c x : List Nat → ℝ)
    (hm : ∀ i j, i < b → j < m → ∑ k ∈ Finset.range n, |x [i, k]| * |w [k, j]| + |c [0, j]| < P) :
    ∀ s, FC.affine (magnitudes (ofFn [n, m] w)) (magnitudes (ofFn [1, m] c)) (magnitudes (ofFn [b, n] x)) = .ok s → ∀ v ∈ s.data, v < P := by
  intro s hs v hv
  have e : ∀ (ds : List Nat) (f : List Nat → ℝ), magnitudes (ofFn ds f) = ofFn ds fun i => |f i| := fun ds f => by
    show (⟨_, _⟩ : Tensor ℝ) = ⟨_, _⟩
    congr 1
    exact List.map_map
  rw [e, e, e, fc_affine_batch h] at hs
  cases hs
  obtain ⟨idx, hi, rfl⟩ := List.mem_map.1 hv
  obtain ⟨i, j, rfl, hi, hj⟩ : ∃ i j, idx = [i, j] ∧ i < b ∧ j < m := by
    rcases mem_indices.1 hi with _ | ⟨h1, _ | ⟨h2, _ | _⟩⟩
    exact ⟨_, _, rfl, h1, h2⟩
  have := hm i j hi hj
  unfold denseRow
  rw [dot_eq_sum]
  exact this

/-- A dense layer applied to a batch of rows of whole numbers gives the whole numbers one computes by hand. -/
theorem C108_dense {b n m : Nat} (h : Dims [b, m]) (w c x : List Nat → ℤ)
    (hm : ∀ i j, i < b → j < m → ∑ k ∈ Finset.range n, |x [i, k]| * |w [k, j]| + |c [0, j]| < P) :
    FC.affine (ofFn [n, m] fun i => (⟨w i⟩ : Rounded rd)) (ofFn [1, m] fun i => ⟨c i⟩) (ofFn [b, n] fun i => ⟨x i⟩) =
      .ok (ofFn [b, m] fun idx => ⟨((∑ k ∈ Finset.range n, x [idx.getD 0 0, k] * w [k, idx.getD 1 0] + c [0, idx.getD 1 0] : ℤ) : ℝ)⟩) := by
  have hw : ∀ (ds : List Nat) (f : List Nat → ℤ), SameWhole (ofFn ds fun i => (⟨f i⟩ : Rounded rd)) (ofFn ds fun i => (f i : ℝ)) := fun ds f =>
    ⟨rfl, List.forall₂_map_left_iff.2 (List.forall₂_map_right_iff.2 (List.forall₂_same.2 fun i _ => ⟨rfl, f i, rfl⟩))⟩
  have h1 := whole_affine hr (hw [n, m] w) (hw [1, m] c) (hw [b, n] x) (keepsSmall_dense h _ _ _ ?_)
  · rw [fc_affine_batch h] at h1 ⊢
    rw [fc_affine_batch h] at h1
    refine congrArg Except.ok (ofFn_congr fun idx hi => Rounded.ext ?_)
    have h2 := List.forall₂_map_left_iff.1 (List.forall₂_map_right_iff.1 h1.2)
    rw [List.forall₂_same] at h2
    rw [(h2 idx (mem_indices.2 hi)).1]
    unfold denseRow
    rw [dot_eq_sum]
    push_cast
    rfl
  · intro i j hi hj
    have := hm i j hi hj
    push_cast at this
    exact this

end

/-- Binary floating point with `p` bits after the leading one computes such models exactly as long as the sums stay below `2^(p+1)`. -/
theorem C108_binary {ρ ρ' : Type} {p emin : Int} (hemin : emin ≤ 0) (E : Engine ρ (Rounded (rnd p emin))) (E' : Engine ρ' ℝ)
    {net : Net ρ (Rounded (rnd p emin))} {net' : Net ρ' ℝ} (hn : List.Forall₂ WholeLayer net.layers net'.layers)
    {x : Tensor (Rounded (rnd p emin))} {x' : Tensor ℝ} (hx : SameWhole x x') (hf : AllKeepSmall E' (2 ^ (p + 1)) net'.layers x' net'.rng) :
    SameOutcome SameWhole (Net.predict E x net).1 (Net.predict E' x' net').1 :=
  C108_predict (fun n hn => rnd_int hemin n hn) E E' hn hx hf

theorem exists_above (d : List ℝ) : ∃ P : ℝ, ∀ v ∈ d, v < P := by
  induction d with
  | nil => exact ⟨0, by simp⟩
  | cons a d ih =>
    obtain ⟨P, hP⟩ := ih
    refine ⟨max P (a + 1), fun v hv => ?_⟩
    rcases List.mem_cons.1 hv with rfl | hv
    · exact lt_of_lt_of_le (by linarith) (le_max_right _ _)
    · exact (hP v hv).trans_le (le_max_left _ _)

theorem keepsSmall_mono {P P' : ℝ} (h : P ≤ P') {l : Layer ℝ} {x : Tensor ℝ} (hf : KeepsSmall P l x) : KeepsSmall P' l x := by
  rcases l with ⟨k, md⟩
  cases k with
  | fc a => exact fun s hs v hv => (hf s hs v hv).trans_le h
  | conv a => exact fun s hs v hv => (hf s hs v hv).trans_le h
  | _ => trivial

theorem keepsSmall_some (l : Layer ℝ) (x : Tensor ℝ) : ∃ P, KeepsSmall P l x := by
  rcases l with ⟨k, md⟩
  have key : ∀ r : Res (Tensor ℝ), ∃ P : ℝ, ∀ s, r = .ok s → ∀ v ∈ s.data, v < P := by
    rintro (e | s)
    · exact ⟨0, fun s h => by cases h⟩
    · obtain ⟨P, hP⟩ := exists_above s.data
      exact ⟨P, fun s' h => by cases h; exact hP⟩
  cases k with
  | fc a => exact key _
  | conv a => exact key _
  | _ => exact ⟨0, trivial⟩

theorem allKeepSmall_mono {ρ : Type} (E : Engine ρ ℝ) {P P' : ℝ} (h : P ≤ P') : ∀ (ls : List (Layer ℝ)) (x : Tensor ℝ) (r : ρ), AllKeepSmall E P ls x r → AllKeepSmall E P' ls x r
  | [], _, _, _ => trivial
  | _ :: ls, _, _, hf => ⟨keepsSmall_mono h hf.1, fun y l1 r1 hy => allKeepSmall_mono E h ls y r1 (hf.2 y l1 r1 hy)⟩

theorem allKeepSmall_some {ρ : Type} (E : Engine ρ ℝ) : ∀ (ls : List (Layer ℝ)) (x : Tensor ℝ) (r : ρ), ∃ P, AllKeepSmall E P ls x r
  | [], _, _ => ⟨0, trivial⟩
  | l :: ls, x, r => by
    obtain ⟨P, hP⟩ := keepsSmall_some l x
    rcases hy : Layer.forward E x (l, r) with ⟨e | y, l1, r1⟩
    · refine ⟨P, hP, fun y l1 r1 h => ?_⟩
      rw [hy] at h
      cases h
    · obtain ⟨Q, hQ⟩ := allKeepSmall_some E ls y r1
      refine ⟨max P Q, keepsSmall_mono (le_max_left _ _) hP, fun y' l1' r1' h => ?_⟩
      rw [hy] at h
      cases h
      exact allKeepSmall_mono E (le_max_right _ _) ls y r1 hQ

/-- For every model and input of whole numbers there is a precision from which on the answer has no error. -/
theorem C108_enough_precision {ρ' : Type} (E' : Engine ρ' ℝ) (net' : Net ρ' ℝ) (x' : Tensor ℝ) :
    ∃ p0 : Int, ∀ {ρ : Type} {p emin : Int} (_ : p0 ≤ p) (_ : emin ≤ 0) (E : Engine ρ (Rounded (rnd p emin))) {net : Net ρ (Rounded (rnd p emin))}
      (_ : List.Forall₂ WholeLayer net.layers net'.layers) {x : Tensor (Rounded (rnd p emin))} (_ : SameWhole x x'),
      SameOutcome SameWhole (Net.predict E x net).1 (Net.predict E' x' net').1 := by
  obtain ⟨P, hP⟩ := allKeepSmall_some E' net'.layers x' net'.rng
  obtain ⟨k, hk⟩ := pow_unbounded_of_one_lt P (one_lt_two (α := ℝ))
  refine ⟨k, fun {ρ p emin} hp hemin E net hn x hx => C108_binary hemin E E' hn hx (allKeepSmall_mono E' ?_ _ _ _ hP)⟩
  refine hk.le.trans ?_
  rw [← zpow_natCast]
  exact zpow_le_zpow_right₀ one_le_two (by omega)

/-- The bound is needed: in single precision a dense layer that adds 1 to its input maps 2^25 to 2^25. -/
theorem C108_limit : FC.affine (ofFn [1, 1] fun _ => (⟨1⟩ : Rounded (rnd 23 (-149)))) (ofFn [1, 1] fun _ => ⟨1⟩) (ofFn [1, 1] fun _ => ⟨2 ^ 25⟩) =
    .ok (ofFn [1, 1] fun _ => ⟨2 ^ 25⟩) := by
  have r25 : rnd 23 (-149) (2 ^ 25) = 2 ^ 25 := by
    rw [rnd_25 le_rfl (by norm_num), show (2 ^ 25 / 4 : ℝ) = ((2 ^ 23 : Int) : ℝ) by norm_num, round_intCast]
    norm_num
  have r26 : rnd 23 (-149) (2 ^ 25 + 1) = 2 ^ 25 := by
    rw [rnd_25 (by norm_num) (by norm_num), show round ((2 ^ 25 + 1) / 4 : ℝ) = 2 ^ 23 by rw [round_eq]; norm_num]
    norm_num
  rw [fc_affine_batch (b := 1) (n := 1) (m := 1) ⟨by simp, by simp, by norm_num⟩]
  refine congrArg Except.ok (congrArg (ofFn [1, 1]) (funext fun idx => Rounded.ext ?_))
  show rnd 23 (-149) (rnd 23 (-149) (0 + rnd 23 (-149) (2 ^ 25 * 1)) + 1) = 2 ^ 25
  rw [mul_one, r25, zero_add, r25, r26]

/-! ### The hypotheses are met -/

/-- Two dense layers with ReLU between them, for rows of `n` features, in any arithmetic. -/
def wholeNet {T : Type} (n k m : Nat) (w b w2 b2 : List Nat → T) : Net Unit T :=
  { layers := [⟨.fc ⟨ofFn [n, k] w, ofFn [1, k] b, none, none, none⟩, true⟩, ⟨.activation ⟨.relu, none⟩, true⟩,
      ⟨.fc ⟨ofFn [k, m] w2, ofFn [1, m] b2, none, none, none⟩, true⟩]
    loss := none
    optimizer := none
    rng := () }

theorem sum_size {n : Nat} {X W B : ℝ} (y w b : List Nat → ℝ) (i j : Nat) (h1 : ∀ i, |y i| ≤ X) (h2 : ∀ i, |w i| ≤ W) (h3 : ∀ i, |b i| ≤ B) :
    ∑ k ∈ Finset.range n, |y [i, k]| * |w [k, j]| + |b [0, j]| ≤ n * (X * W) + B := by
  have p : ∀ k ∈ Finset.range n, |y [i, k]| * |w [k, j]| ≤ X * W := fun k _ => mul_le_mul (h1 _) (h2 _) (abs_nonneg _) ((abs_nonneg _).trans (h1 [i, k]))
  have := Finset.sum_le_sum p
  rw [Finset.sum_const, Finset.card_range, nsmul_eq_mul] at this
  linarith [h3 [0, j]]

theorem wholeNet_fits {P : ℝ} {r n k m : Nat} (hk : Dims [r, k]) (hm : Dims [r, m]) {X W B W2 B2 : ℝ} (w b w2 b2 x : List Nat → ℝ)
    (hx : ∀ i, |x i| ≤ X) (hw : ∀ i, |w i| ≤ W) (hb : ∀ i, |b i| ≤ B) (hw2 : ∀ i, |w2 i| ≤ W2) (hb2 : ∀ i, |b2 i| ≤ B2)
    (h1 : n * (X * W) + B < P) (h2 : k * ((n * (X * W) + B) * W2) + B2 < P) (E : Engine Unit ℝ) :
    AllKeepSmall E P (wholeNet n k m w b w2 b2).layers (ofFn [r, n] x) () := by
  refine ⟨keepsSmall_dense hk _ _ _ fun i j _ _ => (sum_size x w b i j hx hw hb).trans_lt h1, fun y l1 r1 hy => ⟨trivial, fun z l2 r2 hz => ⟨?_, fun _ _ _ _ => trivial⟩⟩⟩
  have e1 : FC.affine (ofFn [n, k] w) (ofFn [1, k] b) (ofFn [r, n] x) = .ok y := congrArg Prod.fst hy
  rw [fc_affine_batch hk] at e1
  have e2 : Act.forward .relu y = .ok z := congrArg Prod.fst hz
  cases e1
  rw [show Act.forward .relu (ofFn [r, k] (denseRow n w b x)) = .ok (ofFn [r, k] fun i => cmax 0 (denseRow n w b x i)) from map_ofFn _ _ _] at e2
  cases e2
  refine keepsSmall_dense hm _ _ _ fun i j _ _ => (sum_size (fun i => cmax 0 (denseRow n w b x i)) w2 b2 i j (fun i => ?_) hw2 hb2).trans_lt h2
  have : |denseRow n w b x i| ≤ n * (X * W) + B := by
    refine le_trans ?_ (sum_size x w b (i.getD 0 0) (i.getD 1 0) hx hw hb)
    unfold denseRow
    rw [dot_eq_sum]
    refine (abs_add_le _ _).trans (add_le_add_left ((Finset.abs_sum_le_sum_abs _ _).trans (Finset.sum_le_sum fun p _ => (abs_mul _ _).le)) _)
  refine le_trans ?_ this
  unfold cmax
  split
  · exact le_rfl
  · rw [abs_zero]; exact abs_nonneg _

/-- Two dense layers with ReLU between them, for batches and layers of every size: with whole numbers of sizes up to `X`, `W`, `B`, `W2`
and `B2`, binary floating point makes no error if the largest possible sums are below `2^(p+1)`. -/
theorem C108_two_layers {r n k m : Nat} (hk : Dims [r, k]) (hm : Dims [r, m]) {p emin : Int} (hemin : emin ≤ 0) {X W B W2 B2 : ℤ}
    (w b w2 b2 x : List Nat → ℤ) (hx : ∀ i, |x i| ≤ X) (hw : ∀ i, |w i| ≤ W) (hb : ∀ i, |b i| ≤ B) (hw2 : ∀ i, |w2 i| ≤ W2) (hb2 : ∀ i, |b2 i| ≤ B2)
    (h1 : (n : ℝ) * (X * W) + B < 2 ^ (p + 1)) (h2 : (k : ℝ) * ((n * (X * W) + B) * W2) + B2 < 2 ^ (p + 1))
    (E : Engine Unit (Rounded (rnd p emin))) (E' : Engine Unit ℝ) :
    SameOutcome SameWhole
      (Net.predict E (ofFn [r, n] fun i => ⟨x i⟩) (wholeNet n k m (fun i => ⟨w i⟩) (fun i => ⟨b i⟩) (fun i => ⟨w2 i⟩) (fun i => ⟨b2 i⟩))).1
      (Net.predict E' (ofFn [r, n] fun i => (x i : ℝ)) (wholeNet n k m (fun i => (w i : ℝ)) (fun i => (b i : ℝ)) (fun i => (w2 i : ℝ)) (fun i => (b2 i : ℝ)))).1 := by
  have same : ∀ (ds : List Nat) (f : List Nat → ℤ), SameWhole (ofFn ds fun i => (⟨f i⟩ : Rounded (rnd p emin))) (ofFn ds fun i => (f i : ℝ)) := fun ds f =>
    ⟨rfl, List.forall₂_map_left_iff.2 (List.forall₂_map_right_iff.2 (List.forall₂_same.2 fun i _ => ⟨rfl, f i, rfl⟩))⟩
  have cast : ∀ {n c : ℤ}, |n| ≤ c → |(n : ℝ)| ≤ c := fun {n c} h => by rw [← Int.cast_abs]; exact_mod_cast h
  refine C108_binary hemin E E' (.cons ⟨same _ _, same _ _⟩ (.cons ⟨rfl, rfl⟩ (.cons ⟨same _ _, same _ _⟩ .nil))) (same _ _) ?_
  exact wholeNet_fits hk hm _ _ _ _ _ (fun i => cast (hx i)) (fun i => cast (hw i))
    (fun i => cast (hb i)) (fun i => cast (hw2 i)) (fun i => cast (hb2 i)) h1 h2 E'

/-- Batches of five rows of two pixels from 0 to 255, weights up to 100 and biases up to 1000: single precision makes no error at all. -/
example : Dims [5, 2] ∧ Dims [5, 3] ∧ ((2 : ℕ) : ℝ) * ((255 : ℤ) * (100 : ℤ)) + (1000 : ℤ) < 2 ^ ((23 : Int) + 1) ∧
    ((2 : ℕ) : ℝ) * (((2 : ℕ) * ((255 : ℤ) * (100 : ℤ)) + (1000 : ℤ)) * (100 : ℤ)) + (1000 : ℤ) < 2 ^ ((23 : Int) + 1) :=
  ⟨⟨by simp, by simp, by norm_num⟩, ⟨by simp, by simp, by norm_num⟩, by norm_num, by norm_num⟩

end SmartDNN
