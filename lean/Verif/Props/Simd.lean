import Verif.Model.Simd
import Verif.Props.Rounding
import Verif.Proofs.MatmulDispatch

/-!
# Vectorised sums (C91)

`red : Reduction` is one way of adding the terms of a loop with an OpenMP reduction clause (Model/Simd.lean).
-/

namespace SmartDNN
open Spec

namespace Spec

/-- The iterations that the lanes run. -/
def iterations : Reduction → List Nat
  | .start => []
  | .lane is => is
  | .join l r => iterations l ++ iterations r

/-- How often the original variable is added. -/
def starts : Reduction → Nat
  | .start => 1
  | .lane _ => 0
  | .join l r => starts l + starts r

/-- What OpenMP allows: every iteration of a loop over `0, ..., n - 1` runs once, on some lane, and the original variable is
added once. -/
def AllowedReduction (n : Nat) (red : Reduction) : Prop := (iterations red).Perm (List.range n) ∧ starts red = 1

/-- Longest chain of additions. -/
def chain : Reduction → Nat
  | .start => 0
  | .lane is => is.length
  | .join l r => max (chain l) (chain r) + 1

/-- Number of additions between lanes. -/
def joins : Reduction → Nat
  | .start => 0
  | .lane _ => 0
  | .join l r => joins l + joins r + 1

end Spec

/-! ## Helper lemmas -/

/-- Value of a reduction whose iterations all succeed. -/
def Reduction.value {T : Type} [Zero T] [Add T] (v : Nat → T) : Reduction → T
  | .start => 0
  | .lane is => lsum (is.map v)
  | .join l r => l.value v + r.value v

theorem laneSum_ok {T : Type} [Zero T] [Add T] {body : Nat → Res T} {v : Nat → T} (is : List Nat)
    (h : ∀ i ∈ is, body i = .ok (v i)) : laneSum body is = .ok (lsum (is.map v)) := by
  unfold laneSum lsum
  generalize (0 : T) = z
  induction is generalizing z with
  | nil => rfl
  | cons i is ih =>
    rw [List.foldlM_cons, h i List.mem_cons_self]
    exact ih (fun j hj => h j (List.mem_cons_of_mem _ hj)) _

theorem Reduction.eval_ok {T : Type} [Zero T] [Add T] {body : Nat → Res T} {v : Nat → T} (red : Reduction)
    (h : ∀ i ∈ iterations red, body i = .ok (v i)) : red.eval body = .ok (red.value v) := by
  induction red with
  | start => rfl
  | lane is => exact laneSum_ok is h
  | join l r ihl ihr =>
    unfold Reduction.eval
    rw [ihl fun i hi => h i (List.mem_append_left _ hi), ihr fun i hi => h i (List.mem_append_right _ hi)]
    rfl

theorem allowed_lt {n : Nat} {red : Reduction} (h : AllowedReduction n red) {i : Nat} (hi : i ∈ iterations red) : i < n :=
  List.mem_range.1 (h.1.mem_iff.1 hi)

theorem dotProductSimd_ok {T : Type} [Zero T] [Add T] [Mul T] {n : Nat} {red : Reduction} (h : AllowedReduction n red)
    (f g : List Nat → T) :
    (ofFn [n] f).dotProductSimd red (ofFn [n] g) = .ok (ofFn [1] (fun _ => red.value (fun p => f [p] * g [p]))) := by
  unfold Tensor.dotProductSimd
  simp only [ofFn_shape, get0, Except.bind_ok', make_one]
  rw [if_neg (by simp), red.eval_ok (v := fun p => f [p] * g [p])]
  · rfl
  · intro k hk
    have hk := allowed_lt h hk
    rw [get_flat1 f hk, get_flat1 g hk]; rfl

theorem matrixVectorMulSimd_ok {T : Type} [Zero T] [Add T] [Mul T] {m n : Nat} {reds : Nat → Reduction} (hd : Dims [m])
    (h : ∀ i < m, AllowedReduction n (reds i)) (f g : List Nat → T) :
    (ofFn [m, n] f).matrixVectorMulSimd reds (ofFn [n] g) = .ok (ofFn [m] (fun idx =>
      (reds (idx.getD 0 0)).value (fun p => f [idx.getD 0 0, p] * g [p]))) := by
  unfold Tensor.matrixVectorMulSimd
  simp only [ofFn_shape, get0, get1, Except.bind_ok']
  rw [if_neg (by simp)]
  have hm : Shape.make [(m : Int)] = .ok (shapeOf [m]) := make_dims hd
  rw [hm]
  simp only [Except.bind_ok', full_shapeOf, forI_nat]
  rw [forN_indices1]
  apply foldlM_fill
  intro idx hv r
  obtain ⟨i, rfl, hi⟩ := valid1_iff.1 hv
  simp only [List.getD_cons_zero, Int.toNat_natCast]
  rw [(reds i).eval_ok (v := fun p => f [i, p] * g [p])]
  · simp only [Except.bind_ok']
    rw [set_flat1 r hi]
  · intro p hp
    have hp := allowed_lt (h i hi) hp
    rw [get_flat2 f hi hp, get_flat1 g hp]; rfl

theorem dotProductSimd_err {T : Type} [Zero T] [Add T] [Mul T] {n m : Nat} {red : Reduction} (h : n ≠ m) (f g : List Nat → T) :
    (ofFn [n] f).dotProductSimd red (ofFn [m] g) = .error .invalidArgument := by
  unfold Tensor.dotProductSimd
  simp only [ofFn_shape, get0, Except.bind_ok']
  rw [if_pos (by exact_mod_cast h)]
  rfl

theorem matrixVectorMulSimd_err {T : Type} [Zero T] [Add T] [Mul T] {m n n' : Nat} {reds : Nat → Reduction} (h : n ≠ n')
    (f g : List Nat → T) : (ofFn [m, n] f).matrixVectorMulSimd reds (ofFn [n'] g) = .error .invalidArgument := by
  unfold Tensor.matrixVectorMulSimd
  simp only [ofFn_shape, get0, get1, Except.bind_ok']
  rw [if_pos (by exact_mod_cast h)]
  rfl

theorem value_sum {T : Type} [AddCommMonoid T] (v : Nat → T) (red : Reduction) :
    red.value v = ((iterations red).map v).sum := by
  induction red with
  | start => rfl
  | lane is =>
    show lsum _ = _
    rw [lsum, List.sum_eq_foldl]
    rfl
  | join l r ihl ihr =>
    show l.value v + r.value v = ((iterations l ++ iterations r).map v).sum
    rw [ihl, ihr, List.map_append, List.sum_append]

theorem value_dot {T : Type} [NonUnitalNonAssocSemiring T] {n : Nat} {red : Reduction} (h : AllowedReduction n red) (x y : Nat → T) :
    red.value (fun p => x p * y p) = dot n x y := by
  rw [value_sum, (h.1.map _).sum_eq, dot, lsum, List.sum_eq_foldl]

/-! ## C91 -/

/-- Exact arithmetic: whatever the lanes, `matmul` returns what it returns with sequential loops, for operands of all shapes. -/
theorem C91_exact {T : Type} [NonUnitalNonAssocSemiring T] (a b : List Nat) (ha : Dims a) (hb : Dims b) (reds : Nat → Reduction)
    (h : ∀ i, AllowedReduction (innerL a) (reds i)) (f g : List Nat → T) :
    (ofFn a f).matmulSimd reds (ofFn b g) = (ofFn a f).matmul (ofFn b g) := by
  unfold Tensor.matmulSimd
  by_cases h1 : (ofFn a f).shape.rank = 1 ∧ (ofFn b g).shape.rank = 1
  · rw [if_pos h1]
    simp only [ofFn_shape, shapeOf_rank] at h1
    obtain ⟨n, rfl⟩ := List.length_eq_one_iff.1 h1.1
    obtain ⟨n', rfl⟩ := List.length_eq_one_iff.1 h1.2
    by_cases hn : n = n'
    · subst hn
      have h : ∀ i, AllowedReduction n (reds i) := h
      rw [dotProductSimd_ok (h 0), matmul_11, dotProduct_ok, value_dot (h 0)]
    · rw [dotProductSimd_err hn, matmul_11, dotProduct_err hn]
  · rw [if_neg h1]
    by_cases h2 : (ofFn a f).shape.rank = 2 ∧ (ofFn b g).shape.rank = 1
    · rw [if_pos h2]
      simp only [ofFn_shape, shapeOf_rank] at h2
      obtain ⟨m, n, rfl⟩ := List.length_eq_two.1 h2.1
      obtain ⟨n', rfl⟩ := List.length_eq_one_iff.1 h2.2
      by_cases hn : n = n'
      · subst hn
        have h : ∀ i, AllowedReduction n (reds i) := h
        have hm : Dims [m] := ⟨by simp, by intro d hd; exact ha.pos d (by simp at hd; simp [hd]), by
          have h0 := ha.pos n (by simp)
          have := ha.lt
          simp at this ⊢
          nlinarith⟩
        rw [matrixVectorMulSimd_ok hm (fun i _ => h i), matmul_21, matrixVectorMul_ok hm]
        refine congrArg Except.ok (ofFn_congr fun idx _ => value_dot (h _) _ _)
      · rw [matrixVectorMulSimd_err hn, matmul_21, matrixVectorMul_err hn]
    · rw [if_neg h2]

variable {F : Type} [Zero F] [One F] [Add F] [Sub F] [Mul F] [Div F] [NatCast F] {u η : ℝ}

theorem value_error (M : FloatModel F u η) (x y : Nat → F) (red : Reduction) (h : M.fin (red.value (fun p => x p * y p))) :
    |M.val (red.value (fun p => x p * y p)) - ((iterations red).map (fun p => M.val (x p) * M.val (y p))).sum| ≤
      ((1 + u) ^ (chain red + 1) - 1) * ((iterations red).map (fun p => |M.val (x p) * M.val (y p)|)).sum +
        (iterations red).length * ((1 + u) ^ chain red * η) := by
  have hu := M.u_nonneg
  have hη := M.η_nonneg
  induction red with
  | start => simp [Reduction.value, iterations, M.val_zero]
  | lane is =>
    have := lsum_approx M is (fun p => x p * y p) (fun p => M.val (x p) * M.val (y p))
      (fun p => |M.val (x p) * M.val (y p)|) (fun _ _ => le_refl _) (fun i _ hf => (M.mul _ _ hf).2.2) h
    rw [pow_succ]
    exact this
  | join l r ihl ihr =>
    obtain ⟨h1, h2, h3⟩ := M.add _ _ h
    have hl := ihl h1
    have hr := ihr h2
    have mono : ∀ c : Reduction, chain c ≤ max (chain l) (chain r) → ∀ e A : ℝ, |e| ≤ A → ∀ v : ℝ,
        |v - e| ≤ ((1 + u) ^ (chain c + 1) - 1) * A + (iterations c).length * ((1 + u) ^ chain c * η) →
        |v - e| ≤ ((1 + u) ^ (max (chain l) (chain r) + 1) - 1) * A +
          (iterations c).length * ((1 + u) ^ (max (chain l) (chain r)) * η) := by
      intro c hc e A hA v hv
      have hA0 : 0 ≤ A := le_trans (abs_nonneg _) hA
      have e1 : (1 + u) ^ (chain c + 1) ≤ (1 + u) ^ (max (chain l) (chain r) + 1) :=
        pow_le_pow_right₀ (by linarith) (by omega)
      have e2 : (1 + u) ^ chain c ≤ (1 + u) ^ (max (chain l) (chain r)) := pow_le_pow_right₀ (by linarith) hc
      refine le_trans hv (add_le_add (mul_le_mul_of_nonneg_right (by linarith) hA0) ?_)
      exact mul_le_mul_of_nonneg_left (mul_le_mul_of_nonneg_right e2 hη) (Nat.cast_nonneg _)
    have hlA := abs_sum_map_le (iterations l) (fun p => M.val (x p) * M.val (y p))
    have hrA := abs_sum_map_le (iterations r) (fun p => M.val (x p) * M.val (y p))
    have hl := mono l (le_max_left _ _) _ _ hlA _ hl
    have hr := mono r (le_max_right _ _) _ _ hrA _ hr
    clear mono ihl ihr
    show |M.val (l.value _ + r.value _) - ((iterations l ++ iterations r).map _).sum| ≤
      ((1 + u) ^ (max (chain l) (chain r) + 1 + 1) - 1) * ((iterations l ++ iterations r).map _).sum +
        (iterations l ++ iterations r).length * ((1 + u) ^ (max (chain l) (chain r) + 1) * η)
    rw [List.map_append, List.map_append, List.sum_append, List.sum_append, List.length_append]
    push_cast
    rw [pow_succ (1 + u) (max (chain l) (chain r) + 1)]
    set G := (1 + u) ^ (max (chain l) (chain r) + 1)
    have hH : G = (1 + u) ^ (max (chain l) (chain r)) * (1 + u) := pow_succ _ _
    set H := (1 + u) ^ (max (chain l) (chain r))
    set vl := M.val (l.value fun p => x p * y p)
    set vr := M.val (r.value fun p => x p * y p)
    set el := ((iterations l).map fun p => M.val (x p) * M.val (y p)).sum
    set er := ((iterations r).map fun p => M.val (x p) * M.val (y p)).sum
    set al := ((iterations l).map fun p => |M.val (x p) * M.val (y p)|).sum
    set ar := ((iterations r).map fun p => |M.val (x p) * M.val (y p)|).sum
    set nl : ℝ := ((iterations l).length : ℝ)
    set nr : ℝ := ((iterations r).length : ℝ)
    have k1 : |vl + vr| ≤ (al + ar) + (|vl - el| + |vr - er|) := by
      have := abs_add_le (vl - el) el
      have := abs_add_le (vr - er) er
      have := abs_add_le vl vr
      simp only [sub_add_cancel] at *
      linarith
    have k2 : |M.val ((l.value fun p => x p * y p) + r.value fun p => x p * y p) - (el + er)| ≤
        u * |vl + vr| + (|vl - el| + |vr - er|) := by
      have := abs_add_le (M.val ((l.value fun p => x p * y p) + r.value fun p => x p * y p) - (vl + vr)) ((vl - el) + (vr - er))
      have := abs_add_le (vl - el) (vr - er)
      rw [show M.val ((l.value fun p => x p * y p) + r.value fun p => x p * y p) - (vl + vr) + ((vl - el) + (vr - er)) =
        M.val ((l.value fun p => x p * y p) + r.value fun p => x p * y p) - (el + er) by ring] at *
      linarith
    have k3 := mul_le_mul_of_nonneg_left k1 hu
    have k4 : (1 + u) * (|vl - el| + |vr - er|) ≤
        (1 + u) * (((G - 1) * al + nl * (H * η)) + ((G - 1) * ar + nr * (H * η))) :=
      mul_le_mul_of_nonneg_left (by linarith) (by linarith)
    rw [hH] at k4 ⊢
    linarith

/-- Floating point: the dot product of two vectors, whatever the lanes.  A finite result is the exact dot product up to a relative
error of `(1+u)^(c+1) - 1` of the sum of the absolute values, where `c` is the longest chain of additions. -/
theorem C91_dot (M : FloatModel F u η) (n : Nat) (reds : Nat → Reduction) (h : AllowedReduction n (reds 0)) (f g : List Nat → F) :
    ∃ s, (ofFn [n] f).matmulSimd reds (ofFn [n] g) = .ok (ofFn [1] (fun _ => s)) ∧ (M.fin s →
      |M.val s - ((List.range n).map (fun p => M.val (f [p]) * M.val (g [p]))).sum| ≤
        ((1 + u) ^ (chain (reds 0) + 1) - 1) * ((List.range n).map (fun p => |M.val (f [p]) * M.val (g [p])|)).sum +
          n * ((1 + u) ^ chain (reds 0) * η)) := by
  refine ⟨(reds 0).value (fun p => f [p] * g [p]), ?_, fun hf => ?_⟩
  · unfold Tensor.matmulSimd
    rw [if_pos (by simp), dotProductSimd_ok h]
  · have := value_error M _ _ (reds 0) hf
    rwa [(h.1.map _).sum_eq, (h.1.map _).sum_eq, h.1.length_eq, List.length_range] at this

/-- The same for every row of a matrix-vector product; every row may be added in its own way. -/
theorem C91_matrix_vector (M : FloatModel F u η) (m n : Nat) (hd : Dims [m]) (reds : Nat → Reduction)
    (h : ∀ i < m, AllowedReduction n (reds i)) (f g : List Nat → F) :
    ∃ s, (ofFn [m, n] f).matmulSimd reds (ofFn [n] g) = .ok (ofFn [m] s) ∧ ∀ i < m, M.fin (s [i]) →
      |M.val (s [i]) - ((List.range n).map (fun p => M.val (f [i, p]) * M.val (g [p]))).sum| ≤
        ((1 + u) ^ (chain (reds i) + 1) - 1) * ((List.range n).map (fun p => |M.val (f [i, p]) * M.val (g [p])|)).sum +
          n * ((1 + u) ^ chain (reds i) * η) := by
  refine ⟨fun idx => (reds (idx.getD 0 0)).value (fun p => f [idx.getD 0 0, p] * g [p]), ?_, fun i hi hf => ?_⟩
  · unfold Tensor.matmulSimd
    rw [if_neg (by simp), if_pos (by simp), matrixVectorMulSimd_ok hd h]
  · have h := h i hi
    have := value_error M _ _ (reds i) hf
    rwa [(h.1.map _).sum_eq, (h.1.map _).sum_eq, h.1.length_eq, List.length_range] at this

/-- The chain of additions is at most as long as the loop and the number of additions between lanes together. -/
theorem C91_chain (n : Nat) (red : Reduction) (h : AllowedReduction n red) : chain red ≤ n + joins red := by
  have : ∀ red : Reduction, chain red ≤ (iterations red).length + joins red := by
    intro red
    induction red with
    | start => simp [chain]
    | lane is => simp [chain, iterations]
    | join l r ihl ihr =>
      simp only [chain, iterations, joins, List.length_append]
      omega
  have := this red
  rwa [h.1.length_eq, List.length_range] at this

/-- Two builds of the library that add the lanes differently: their dot products, if finite, differ by at most the sum of the two
error bounds. -/
theorem C91_builds_agree (M : FloatModel F u η) (n : Nat) (reds reds' : Nat → Reduction) (h : AllowedReduction n (reds 0))
    (h' : AllowedReduction n (reds' 0)) (f g : List Nat → F) :
    ∃ s s', (ofFn [n] f).matmulSimd reds (ofFn [n] g) = .ok (ofFn [1] (fun _ => s)) ∧
      (ofFn [n] f).matmulSimd reds' (ofFn [n] g) = .ok (ofFn [1] (fun _ => s')) ∧ (M.fin s → M.fin s' →
        |M.val s - M.val s'| ≤
          ((1 + u) ^ (chain (reds 0) + 1) - 1 + ((1 + u) ^ (chain (reds' 0) + 1) - 1)) *
            ((List.range n).map (fun p => |M.val (f [p]) * M.val (g [p])|)).sum +
          n * ((1 + u) ^ chain (reds 0) * η + (1 + u) ^ chain (reds' 0) * η)) := by
  obtain ⟨s, e, k⟩ := C91_dot M n reds h f g
  obtain ⟨s', e', k'⟩ := C91_dot M n reds' h' f g
  refine ⟨s, s', e, e', fun hs hs' => ?_⟩
  have k := k hs
  have k' := k' hs'
  rw [abs_sub_comm] at k'
  have := abs_add_le (M.val s - ((List.range n).map (fun p => M.val (f [p]) * M.val (g [p]))).sum)
    (((List.range n).map (fun p => M.val (f [p]) * M.val (g [p]))).sum - M.val s')
  rw [sub_add_sub_cancel] at this
  linarith

/-! ### Bitwise equality fails -/

/-- Lanes that add everything in loop order. -/
def Spec.inOrder (n : Nat) : Reduction := .join .start (.lane (List.range n))

theorem inOrder_allowed (n : Nat) : AllowedReduction n (inOrder n) := ⟨by simp [inOrder, iterations], rfl⟩

theorem rnd_25 {x : ℝ} (h1 : 2 ^ 25 ≤ x) (h2 : x < 2 ^ 26) : rnd 23 (-149) x = round (x / 4) * 4 := by
  have hx : (0 : ℝ) < x := by linarith [show (0 : ℝ) < 2 ^ 25 by positivity]
  have hl : Int.log 2 |x| = 25 := by
    rw [abs_of_pos hx]
    have a := (Int.lt_zpow_iff_log_lt (b := 2) one_lt_two (r := x) (x := 26) hx).1 (by norm_num at h2 ⊢; exact h2)
    have b := (Int.zpow_le_iff_le_log (b := 2) one_lt_two (r := x) (x := 25) hx).1 (by norm_num at h1 ⊢; exact h1)
    omega
  have hu : ulp 23 (-149) x = 4 := by unfold ulp; rw [hl]; norm_num
  unfold rnd
  rw [hu]

theorem lift_num {p emin emax : Int} (f : ℝ → ℝ → ℝ) (a b : Binary p emin emax) {va vb r : ℝ} (ha : a ≠ .nonfinite ∧ a.val = va)
    (hb : b ≠ .nonfinite ∧ b.val = vb) (hr : rnd p emin (f va vb) = r) (h : |r| ≤ 2 ^ emax) :
    Binary.lift f a b ≠ .nonfinite ∧ (Binary.lift f a b).val = r := by
  obtain ⟨ha, rfl⟩ := ha
  obtain ⟨hb, rfl⟩ := hb
  subst hr
  have : Binary.lift f a b ≠ .nonfinite := by
    cases a with
    | nonfinite => exact absurd rfl ha
    | num a _ =>
      cases b with
      | nonfinite => exact absurd rfl hb
      | num b _ =>
        show Binary.round _ ≠ _
        unfold Binary.round
        rw [if_pos (by exact h)]
        intro h; cases h
  exact ⟨this, (Binary.lift_ne_none this).2.2⟩

/-- In single precision, two ways of adding the lanes give different results for the dot product of `[2^25, 1, 1, 1]` and
`[1, 1, 1, 1]`: in loop order the ones are lost, and a lane of its own for them keeps them. -/
theorem C91_bits_refuted :
    ∃ (reds reds' : Nat → Reduction) (f g : List Nat → Binary 23 (-149) 128) (s s' : Binary 23 (-149) 128),
      (∀ i, AllowedReduction 4 (reds i)) ∧ (∀ i, AllowedReduction 4 (reds' i)) ∧
      (ofFn [4] f).matmulSimd reds (ofFn [4] g) = .ok (ofFn [1] (fun _ => s)) ∧
      (ofFn [4] f).matmulSimd reds' (ofFn [4] g) = .ok (ofFn [1] (fun _ => s')) ∧
      s ≠ .nonfinite ∧ s' ≠ .nonfinite ∧ s.val = 2 ^ 25 ∧ s'.val = 2 ^ 25 + 4 := by
  let M : FloatModel (Binary 23 (-149) 128) _ _ := binary (by norm_num) (by norm_num) (by norm_num)
  obtain ⟨big, hbig⟩ : ∃ a : Binary 23 (-149) 128, a ≠ .nonfinite ∧ a.val = 2 ^ 25 :=
    ⟨.num (2 ^ 25) ⟨2 ^ 174, by norm_num⟩, by simp, rfl⟩
  have hone : (1 : Binary 23 (-149) 128) ≠ .nonfinite ∧ (1 : Binary 23 (-149) 128).val = 1 := ⟨M.one_fin, M.val_one⟩
  have hzero : (0 : Binary 23 (-149) 128) ≠ .nonfinite ∧ (0 : Binary 23 (-149) 128).val = 0 := ⟨M.zero_fin, M.val_zero⟩
  have small : ∀ n : Nat, n < 100 → rnd 23 (-149) (n : ℝ) = n := fun n hn => by
    have := rnd_int (p := 23) (emin := -149) (by norm_num) (n : Int) (by
      have : (n : ℝ) < 100 := by exact_mod_cast hn
      rw [Int.cast_natCast, abs_of_nonneg (Nat.cast_nonneg n)]
      norm_num
      linarith)
    simpa using this
  have r25 : rnd 23 (-149) (2 ^ 25) = 2 ^ 25 := by
    rw [rnd_25 le_rfl (by norm_num), show (2 ^ 25 / 4 : ℝ) = ((2 ^ 23 : Int) : ℝ) by norm_num, round_intCast]
    norm_num
  have r26 : rnd 23 (-149) (2 ^ 25 + 1) = 2 ^ 25 := by
    rw [rnd_25 (by norm_num) (by norm_num), show round ((2 ^ 25 + 1) / 4 : ℝ) = 2 ^ 23 by rw [round_eq]; norm_num]
    norm_num
  have r28 : rnd 23 (-149) (2 ^ 25 + 3) = 2 ^ 25 + 4 := by
    rw [rnd_25 (by norm_num) (by norm_num), show round ((2 ^ 25 + 3) / 4 : ℝ) = 2 ^ 23 + 1 by rw [round_eq]; norm_num]
    norm_num
  let f : List Nat → Binary 23 (-149) 128 := fun i => if i = [0] then big else 1
  have hp0 : f [0] * 1 ≠ .nonfinite ∧ (f [0] * 1).val = 2 ^ 25 :=
    lift_num (· * ·) _ _ hbig hone (by simpa using r25) (by norm_num)
  have hp1 : (1 : Binary 23 (-149) 128) * 1 ≠ .nonfinite ∧ ((1 : Binary 23 (-149) 128) * 1).val = 1 :=
    lift_num (· * ·) _ _ hone hone (by simpa using small 1 (by norm_num)) (by norm_num)
  have add : ∀ {a b : Binary 23 (-149) 128} {va vb r : ℝ}, a ≠ .nonfinite ∧ a.val = va → b ≠ .nonfinite ∧ b.val = vb →
      rnd 23 (-149) (va + vb) = r → |r| ≤ 2 ^ (128 : Int) → a + b ≠ .nonfinite ∧ (a + b).val = r :=
    fun ha hb hr h => lift_num (· + ·) _ _ ha hb hr h
  have b0 := add hzero hp0 (by simpa using r25) (by norm_num)
  have b1 := add b0 hp1 r26 (by norm_num)
  have b2 := add b1 hp1 r26 (by norm_num)
  have b3 := add b2 hp1 r26 (by norm_num)
  have hs := add hzero b3 (by simpa using r25) (by norm_num)
  have c1 := add hzero hp1 (by simpa using small 1 (by norm_num)) (by norm_num)
  have c2 := add c1 hp1 (r := 2) (by rw [show (1 : ℝ) + 1 = (2 : Nat) by norm_num, small 2 (by norm_num)]; norm_num) (by norm_num)
  have c3 := add c2 hp1 (r := 3) (by rw [show (2 : ℝ) + 1 = (3 : Nat) by norm_num, small 3 (by norm_num)]; norm_num) (by norm_num)
  have hs' := add (add hzero b0 (by simpa using r25) (by norm_num)) c3 r28 (by norm_num)
  have hal : AllowedReduction 4 (.join (.join .start (.lane [0])) (.lane [1, 2, 3])) := ⟨by decide, rfl⟩
  refine ⟨fun _ => inOrder 4, fun _ => .join (.join .start (.lane [0])) (.lane [1, 2, 3]), f, fun _ => 1, _, _,
    fun _ => inOrder_allowed 4, fun _ => hal, ?_, ?_, hs.1, hs'.1, hs.2, hs'.2⟩
  · unfold Tensor.matmulSimd
    rw [if_pos (by simp), dotProductSimd_ok (inOrder_allowed 4)]
    rfl
  · unfold Tensor.matmulSimd
    rw [if_pos (by simp), dotProductSimd_ok hal]
    rfl

/-! ### A concrete case -/

/-- Eight iterations on four lanes, combined pairwise. -/
def Spec.fourLanes : Reduction :=
  .join .start (.join (.join (.lane [0, 4]) (.lane [1, 5])) (.join (.lane [2, 6]) (.lane [3, 7])))

theorem fourLanes_allowed : AllowedReduction 8 fourLanes := ⟨by decide, rfl⟩

example : chain fourLanes = 5 := rfl

example (f g : List Nat → ℝ) :
    (ofFn [8] f).matmulSimd (fun _ => fourLanes) (ofFn [8] g) = (ofFn [8] f).matmul (ofFn [8] g) :=
  C91_exact [8] [8] ⟨by simp, by simp, by norm_num⟩ ⟨by simp, by simp, by norm_num⟩ _ (fun _ => fourLanes_allowed) f g

example (f g : List Nat → Binary 23 (-149) 128) := C91_dot (binary (by norm_num) (by norm_num) (by norm_num)) 8 (fun _ => fourLanes)
  fourLanes_allowed f g

end SmartDNN
