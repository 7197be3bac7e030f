import Verif.Proofs.Rounding
import Verif.Props.Reductions
import Verif.Props.Linear
import Verif.Props.Dense
import Verif.Proofs.Conv
import Verif.Props.Optimizers

/-!
# Rounding errors (C77)

`M : FloatModel F u η` is what IEEE 754 guarantees about a floating-point type (Spec/Rounding.lean).
-/

namespace SmartDNN
open Spec

variable {F : Type} [Zero F] [One F] [Add F] [Sub F] [Mul F] [Div F] [NatCast F] {u η : ℝ}

/-- The sum of the numbers that the elements of an array stand for. -/
def Spec.exactSum (ds : List Nat) (f : List Nat → ℝ) : ℝ := ((indices ds).map f).sum

/-- `sum(t)`: if the result is finite, so is every element, and the result is the exact sum up to a relative error of
`(1+u)^n - 1` of the sum of the absolute values, `n` the number of elements. -/
theorem C77_sum (M : FloatModel F u η) (ds : List Nat) (f : List Nat → F) :
    ∃ s, (ofFn ds f).sumAll = .ok (ofFn [1] (fun _ => s)) ∧ (M.fin s → (∀ i, ValidIdx ds i → M.fin (f i)) ∧
      |M.val s - exactSum ds (fun i => M.val (f i))| ≤ ((1 + u) ^ ds.prod - 1) * exactSum ds (fun i => |M.val (f i)|)) := by
  refine ⟨_, C10_total ds f, fun h => ?_⟩
  obtain ⟨h1, h2⟩ := lsum_error M _ h
  refine ⟨fun i hi => h1 _ (List.mem_map_of_mem (mem_indices.2 hi)), ?_⟩
  simp only [List.map_map, List.length_map, length_indices] at h2
  exact h2

/-- `sum(t, axis)`: the same for every line along the axis. -/
theorem C77_sum_axis (M : FloatModel F u η) (ds : List Nat) (hd : Dims ds) (axis : Nat) (ha : axis < ds.length)
    (hr : 1 < ds.length) (f : List Nat → F) :
    ∃ s, (ofFn ds f).sumAxis axis = .ok (ofFn (ds.eraseIdx axis) s) ∧ ∀ j, M.fin (s j) →
      |M.val (s j) - ((List.range ds[axis]).map (fun k => M.val (f (j.insertIdx axis k)))).sum| ≤
        ((1 + u) ^ ds[axis] - 1) * ((List.range ds[axis]).map (fun k => |M.val (f (j.insertIdx axis k))|)).sum := by
  refine ⟨_, C10_axis ds hd axis ha hr f, fun j h => ?_⟩
  have h2 := (lsum_error M _ h).2
  unfold line at h2
  simp only [List.map_map, List.length_map, List.length_range] at h2
  exact h2

/-- 2-D `matmul`: every finite entry is the exact inner product up to the usual bound. -/
theorem C77_matmul (M : FloatModel F u η) (m k n : Nat) (h : Dims [m, n]) (f g : List Nat → F) :
    ∃ r, (ofFn [m, k] f).matmul (ofFn [k, n] g) = .ok (ofFn [m, n] r) ∧ ∀ i j, M.fin (r [i, j]) →
      |M.val (r [i, j]) - ((List.range k).map (fun p => M.val (f [i, p]) * M.val (g [p, j]))).sum| ≤
        ((1 + u) ^ (k + 1) - 1) * ((List.range k).map (fun p => |M.val (f [i, p]) * M.val (g [p, j])|)).sum +
          k * ((1 + u) ^ k * η) :=
  ⟨_, C15_product m k n h f g, fun _ _ hf => dot_error M k _ _ hf⟩

/-- Fully connected layer: every finite output is `x W + b` up to a relative error of `(1+u)^(n+2) - 1` of the sum of the
absolute values of its terms. -/
theorem C77_dense (M : FloatModel F u η) {b n m : Nat} (h : Dims [b, m]) (w bias x : List Nat → F) (l : FC F)
    (hw : l.weights = ofFn [n, m] w) (hb : l.biases = ofFn [1, m] bias) :
    ∃ y, (FC.forward (ofFn [b, n] x) l).1 = .ok (ofFn [b, m] y) ∧ ∀ i j, M.fin (y [i, j]) →
      |M.val (y [i, j]) - (((List.range n).map (fun p => M.val (x [i, p]) * M.val (w [p, j]))).sum + M.val (bias [0, j]))| ≤
        ((1 + u) ^ (n + 2) - 1) *
          (((List.range n).map (fun p => |M.val (x [i, p]) * M.val (w [p, j])|)).sum + |M.val (bias [0, j])|) +
        n * ((1 + u) ^ (n + 1) * η) := by
  refine ⟨denseRow n w bias x, ?_, fun i j hf => ?_⟩
  · show FC.affine l.weights l.biases _ = _
    rw [hw, hb, fc_affine_batch h]
  · have : _ ≤ ((1 + u) ^ (n + 1) * (1 + u) - 1) *
          (((List.range n).map (fun p => |M.val (x [i, p]) * M.val (w [p, j])|)).sum + |M.val (bias [0, j])|) +
        (1 + u) * (n * ((1 + u) ^ n * η)) := add_error M _ _ _ _ _ hf (one_le_growth M (n + 1))
      (abs_sum_map_le (List.range n) (fun p => M.val (x [i, p]) * M.val (w [p, j])))
      (fun hd => dot_error M n _ _ hd) (le_refl _)
    refine this.trans (le_of_eq ?_)
    ring

/-- `mean(t)`, when the number of elements is representable: the exact mean up to the bound. -/
theorem C77_mean (M : FloatModel F u η) (ds : List Nat) (hd : Dims ds) (f : List Nat → F) (hN : M.fin (ds.prod : F))
    (hNv : M.val (ds.prod : F) = ds.prod) :
    ∃ s, (ofFn ds f).meanAll = .ok (ofFn [1] (fun _ => s)) ∧ (M.fin s →
      |M.val s - exactSum ds (fun i => M.val (f i)) / ds.prod| ≤
        ((1 + u) ^ (ds.prod + 2) - 1) * (exactSum ds (fun i => |M.val (f i)|) / ds.prod) +
        ((1 + u) ^ (ds.prod + 1) * exactSum ds (fun i => |M.val (f i)|) + 1) * η) := by
  refine ⟨lsum ((indices ds).map f) * (1 / (ds.prod : F)), ?_, fun h => ?_⟩
  · unfold Tensor.meanAll
    rw [sumAll_ofFn]
    simp only [Except.bind_ok']
    exact map_ofFn _ _ _
  · obtain ⟨h1, h2, h3⟩ := M.mul _ _ h
    have hpos : (0 : ℝ) < ds.prod := by exact_mod_cast List.prod_pos hd.pos
    have h4 := M.div 1 (ds.prod : F) M.one_fin hN (by rw [hNv]; exact hpos.ne') h2
    have h5 := (lsum_error M _ h1).2
    simp only [List.map_map, List.length_map, length_indices] at h5
    have hG := one_le_growth M ds.prod
    have hu := M.u_nonneg
    have hη := M.η_nonneg
    have hA : 0 ≤ exactSum ds (fun i => |M.val (f i)|) := List.sum_nonneg (by simp)
    have hSA : |exactSum ds (fun i => M.val (f i))| ≤ exactSum ds (fun i => |M.val (f i)|) := abs_sum_map_le _ _
    change |_ - exactSum ds (fun i => M.val (f i))| ≤ _ * exactSum ds (fun i => |M.val (f i)|) at h5
    rw [hNv, M.val_one, abs_of_pos (by positivity : (0 : ℝ) < 1 / ds.prod)] at h4
    rw [show (1 + u) ^ (ds.prod + 2) = (1 + u) ^ ds.prod * (1 + u) ^ 2 from pow_add _ _ _,
      show (1 + u) ^ (ds.prod + 1) = (1 + u) ^ ds.prod * (1 + u) from pow_succ _ _]
    generalize M.val (lsum ((indices ds).map f) * (1 / (ds.prod : F))) = m at *
    generalize M.val (lsum ((indices ds).map f)) = s at *
    generalize M.val ((1 : F) / (ds.prod : F)) = q at *
    generalize exactSum ds (fun i => M.val (f i)) = S at *
    generalize exactSum ds (fun i => |M.val (f i)|) = A at *
    generalize (1 + u) ^ ds.prod = G at *
    generalize (ds.prod : ℝ) = N at *
    have hs : |s| ≤ G * A := by
      have := abs_add_le (s - S) S
      rw [sub_add_cancel] at this
      linarith
    have hq : |q| ≤ (1 + u) / N + η := by
      have := abs_add_le (q - 1 / N) (1 / N)
      rw [sub_add_cancel, abs_of_pos (by positivity : (0 : ℝ) < 1 / N)] at this
      have e : (1 + u) / N = u * (1 / N) + 1 / N := by ring
      linarith
    have k1 : |s * q - S / N| ≤ G * A * (u * (1 / N) + η) + (G - 1) * A / N := by
      have e : s * q - S / N = s * (q - 1 / N) + (s - S) / N := by field_simp; ring
      rw [e]
      refine (abs_add_le _ _).trans ?_
      rw [abs_mul, abs_div, abs_of_pos hpos]
      refine add_le_add (mul_le_mul hs h4 (abs_nonneg _) (by positivity)) ?_
      exact div_le_div_of_nonneg_right h5 hpos.le
    have k2 : |s * q| ≤ G * A * ((1 + u) / N + η) := by
      rw [abs_mul]
      exact mul_le_mul hs hq (abs_nonneg _) (by positivity)
    have k3 := abs_add_le (m - s * q) (s * q - S / N)
    rw [sub_add_sub_cancel] at k3
    have k4 := mul_le_mul_of_nonneg_left k2 hu
    refine (k3.trans (add_le_add (h3.trans (add_le_add_left k4 η)) k1)).trans (le_of_eq ?_)
    field_simp
    ring

/-- Reducing an axis first and then summing, and summing at once, agree up to both bounds: the reals' `C10_total_preserved`
holds for floating-point numbers up to rounding. -/
theorem C77_sum_order (M : FloatModel F u η) (ds : List Nat) (hd : Dims ds) (axis : Nat) (ha : axis < ds.length)
    (hr : 1 < ds.length) (f : List Nat → F) :
    ∃ s t, (ofFn ds f).sumAll = .ok (ofFn [1] (fun _ => s)) ∧
      (do let r ← (ofFn ds f).sumAxis axis; r.sumAll) = .ok (ofFn [1] (fun _ => t)) ∧
      (M.fin s → M.fin t → |M.val s - M.val t| ≤
        ((1 + u) ^ ds.prod - 1 + ((1 + u) ^ ((ds.eraseIdx axis).prod + ds[axis]) - 1)) * exactSum ds (fun i => |M.val (f i)|)) := by
  obtain ⟨s, hs, hs2⟩ := C77_sum M ds f
  have hsum : ∀ g : List Nat → ℝ, exactSum ds g = ((indices (ds.eraseIdx axis)).map
      (fun j => ((List.range ds[axis]).map (fun k => g (j.insertIdx axis k))).sum)).sum := by
    intro g
    have h := C10_total_preserved ds hd axis ha g
    rw [C10_axis ds hd axis ha hr g, C10_total] at h
    simp only [Except.bind_ok', C10_total, lsum_eq_sum] at h
    exact (ofFn_inj (Except.ok.inj h) (show ValidIdx [1] [0] from by simp [ValidIdx])).symm
  refine ⟨s, lsum ((indices (ds.eraseIdx axis)).map (fun j => lsum (line ds[axis] axis f j))), hs, ?_, fun h1 h2 => ?_⟩
  · rw [C10_axis ds hd axis ha hr f]
    exact C10_total _ _
  · have k1 := (hs2 h1).2
    have k2 := lsum_approx M (indices (ds.eraseIdx axis)) (fun j => lsum (line ds[axis] axis f j))
      (fun j => ((List.range ds[axis]).map (fun k => M.val (f (j.insertIdx axis k)))).sum)
      (fun j => ((List.range ds[axis]).map (fun k => |M.val (f (j.insertIdx axis k))|)).sum)
      (v := (1 + u) ^ ds[axis] - 1) (ε := 0) (fun j _ => abs_sum_map_le _ _)
      (fun j _ hj => by
        have h2 := (lsum_error M _ hj).2
        unfold line at h2
        simp only [List.map_map, List.length_map, List.length_range] at h2
        rw [add_zero]
        exact h2) h2
    rw [← hsum (fun i => M.val (f i)), ← hsum (fun i => |M.val (f i)|), length_indices, mul_zero, mul_zero, add_zero,
      add_sub_cancel, ← pow_add] at k2
    have k3 := abs_sub_le (M.val s) (exactSum ds (fun i => M.val (f i)))
      (M.val (lsum ((indices (ds.eraseIdx axis)).map (fun j => lsum (line ds[axis] axis f j)))))
    rw [abs_sub_comm (exactSum ds _)] at k3
    linarith

/-- Convolution layer (what it computes, see C43): every finite output is the exact sum of the products over the kernel window
plus the bias, up to the bound for that many terms. -/
theorem C77_conv [MathFn F] (M : FloatModel F u η) {n oc ic h w kh kw : Nat} (ht : ∀ x : F, MathFn.toFloat x = x)
    (hd : Dims [n, ic, h, w]) (hdk : Dims [oc, ic, kh, kw]) (hdb : Dims [oc, 1])
    (hk : kh ≤ h) (hkw : kw ≤ w) (ho : n * oc * h * w < 2 ^ 31) (k b x : List Nat → F) (l : Conv F)
    (h0 : l.inputChannels = ic) (h1 : l.outputChannels = oc) (h2 : l.kernelHeight = kh) (h3 : l.kernelWidth = kw)
    (h4 : l.weights = ofFn [oc, ic, kh, kw] k) (h5 : l.biases = ofFn [oc, 1] b) :
    ∃ y, (Conv.forward (ofFn [n, ic, h, w] x) l).1 = .ok (ofFn [n, oc, h - kh + 1, w - kw + 1] y) ∧
      ∀ i j r c, M.fin (y [i, j, r, c]) →
        |M.val (y [i, j, r, c]) -
          (exactSum [kh, kw] (fun a => M.val (x [i, 0, r + a.getD 0 0, c + a.getD 1 0]) * M.val (k [j, 0, a.getD 0 0, a.getD 1 0])) +
            M.val (b [j, 0]))| ≤
        ((1 + u) ^ (kh * kw + 2) - 1) *
          (exactSum [kh, kw] (fun a => |M.val (x [i, 0, r + a.getD 0 0, c + a.getD 1 0]) * M.val (k [j, 0, a.getD 0 0, a.getD 1 0])|) +
            |M.val (b [j, 0])|) + (kh * kw : Nat) * ((1 + u) ^ (kh * kw + 1) * η) := by
  refine ⟨fun idx =>
      lsum ((indices [kh, kw]).map (fun a => x [idx.getD 0 0, 0, idx.getD 2 0 + a.getD 0 0, idx.getD 3 0 + a.getD 1 0] *
        k [idx.getD 1 0, 0, a.getD 0 0, a.getD 1 0])) + b [idx.getD 1 0, 0], ?_, fun i j r c hf => ?_⟩
  · unfold Conv.forward
    simp only [Mut.get_bind]
    rw [if_neg (by simp)]
    rw [show (ofFn [n, ic, h, w] x).shape.get 1 = .ok (ic : Int) from rfl]
    simp only [Mut.lift_ok_bind]
    rw [if_neg (by simp [h0])]
    simp only [Mut.modify_bind, Mut.lift_apply]
    exact conv_correlate_raw ht hd hdk hdb hk hkw ho k b x l h1 h2 h3 h4 h5
  · have hl : (indices [kh, kw]).length = kh * kw := by simp
    have : _ ≤ ((1 + u) ^ (kh * kw + 1) * (1 + u) - 1) *
          (exactSum [kh, kw] (fun a => |M.val (x [i, 0, r + a.getD 0 0, c + a.getD 1 0]) * M.val (k [j, 0, a.getD 0 0, a.getD 1 0])|) +
            |M.val (b [j, 0])|) + (1 + u) * ((kh * kw : Nat) * ((1 + u) ^ (kh * kw) * η)) :=
      add_error M _ _ (exactSum [kh, kw] (fun a => M.val (x [i, 0, r + a.getD 0 0, c + a.getD 1 0]) *
          M.val (k [j, 0, a.getD 0 0, a.getD 1 0]))) _ _ hf (one_le_growth M (kh * kw + 1))
        (abs_sum_map_le (indices [kh, kw]) _)
        (fun hd => by
          have := lsum_approx M (indices [kh, kw])
            (fun a => x [i, 0, r + a.getD 0 0, c + a.getD 1 0] * k [j, 0, a.getD 0 0, a.getD 1 0])
            (fun a => M.val (x [i, 0, r + a.getD 0 0, c + a.getD 1 0]) * M.val (k [j, 0, a.getD 0 0, a.getD 1 0]))
            (fun a => |M.val (x [i, 0, r + a.getD 0 0, c + a.getD 1 0]) * M.val (k [j, 0, a.getD 0 0, a.getD 1 0])|)
            (fun _ _ => le_refl _) (fun a _ hf => (M.mul _ _ hf).2.2) hd
          rw [hl] at this
          rw [pow_succ]
          exact this) (le_refl _)
    refine this.trans (le_of_eq ?_)
    ring

/-- Plain SGD: one `optimize` call leaves in every weight, if it is finite, the exact `w - lr * g` up to the errors of one
product and one subtraction. -/
theorem C77_sgd {K : Type} [DecidableEq K] [Neg F] [IntCast F] [LT F] [DecidableLT F] [LE F] [DecidableLE F] [DecidableEq F]
    [MathFn F] (M : FloatModel F u η) (o : SGDOptions F) (hm : o.momentum = 0) (hwd : o.weightDecay = 0) (mem : K → Tensor F)
    (k : K) (ds : List Nat) (w g : List Nat → F) (hk : mem k = ofFn ds w) (lr : F) :
    ∃ (w' : World K F) (y : List Nat → F), World.run ⟨mem, .newSGD o⟩ [⟨[k], [ofFn ds g], lr⟩] = .ok w' ∧
      w'.mem = assign mem k (ofFn ds y) ∧ ∀ i, M.fin (y i) →
        |M.val (y i) - (M.val (w i) - M.val (if 0 < lr then lr else o.learningRate) * M.val (g i))| ≤
          u * |M.val (w i)| + (2 * u + u ^ 2) * |M.val (if 0 < lr then lr else o.learningRate) * M.val (g i)| + (1 + u) * η := by
  have hb : lookupOrZero (fun _ => none : TMap K F) k (shapeOf ds) = ofFn ds (fun _ => 0) := full_shapeOf ds 0
  refine ⟨⟨assign mem k (ofFn ds (fun i => w i - (if 0 < lr then lr else o.learningRate) * g i)),
      .sgd ⟨o, assign (fun _ => none) k (some (ofFn ds (fun i => (sgdCell o (currentLR o.learningRate lr) (g i) (w i, 0)).2)))⟩⟩,
    fun i => w i - (if 0 < lr then lr else o.learningRate) * g i, ?_, rfl, fun i hf => ?_⟩
  · have := run_callsOn_succ (⟨mem, .newSGD o⟩ : World K F) k ds (fun _ => g) (fun _ => lr) 0
    rw [show callsOn k ds (fun _ => g) (fun _ => lr) (0 + 1) = [⟨[k], [ofFn ds g], lr⟩] from rfl,
      show callsOn k ds (fun _ => g) (fun _ => lr) 0 = [] from rfl, run_nil] at this
    rw [this]
    simp only [Except.bind, World.begin, stepPair, Optimizer.newSGD, SGD.updateTensor, hk, ofFn_shape, hb,
      sgd_loop_ofFn, Except.bind_ok', Except.pure_eq']
    refine congrArg Except.ok (congrArg₂ World.mk ?_ rfl)
    congr 1
    refine ofFn_congr fun i _ => ?_
    unfold sgdCell
    simp only [hm, hwd, ne_eq, not_true_eq_false, if_false]
    rfl
  · obtain ⟨h1, h2, h3⟩ := M.sub _ _ hf
    obtain ⟨h4, h5, h6⟩ := M.mul _ _ h2
    have hu := M.u_nonneg
    generalize M.val (w i - (if 0 < lr then lr else o.learningRate) * g i) = y at *
    generalize M.val ((if 0 < lr then lr else o.learningRate) * g i) = q at *
    generalize M.val (if 0 < lr then lr else o.learningRate) * M.val (g i) = p at *
    generalize M.val (w i) = w at *
    have e1 : |w - q| ≤ |w| + ((1 + u) * |p| + η) := by
      have k1 := abs_sub w q
      have k2 := abs_add_le (q - p) p
      rw [sub_add_cancel] at k2
      linarith
    have e2 := mul_le_mul_of_nonneg_left e1 hu
    have e3 := abs_add_le (y - (w - q)) (p - q)
    rw [show y - (w - q) + (p - q) = y - (w - p) by ring, abs_sub_comm p q] at e3
    linarith [show u * (|w| + ((1 + u) * |p| + η)) + (u * |p| + η) = u * |w| + (2 * u + u ^ 2) * |p| + (1 + u) * η by ring]

section
variable {p emin emax : Int}

theorem round_nat (hemin : emin ≤ 0) (n : Nat) (h1 : (n : ℝ) < 2 ^ (p + 1)) (h2 : (n : ℝ) ≤ 2 ^ emax) :
    (Binary.round n : Binary p emin emax).val = n ∧ (Binary.round n : Binary p emin emax) ≠ .nonfinite := by
  have e : rnd p emin n = n := by
    have := rnd_int (p := p) hemin n (by simpa using h1)
    simpa using this
  have hne : (Binary.round n : Binary p emin emax) ≠ .nonfinite := by
    unfold Binary.round
    rw [if_pos]
    · intro h; cases h
    · rw [e, abs_of_nonneg (Nat.cast_nonneg n)]
      exact h2
  exact ⟨by rw [Binary.round_val hne, e], hne⟩

/-- Counting is exact: if the elements stand for natural numbers whose total has at most `p + 1` bits, then `sum(t)` is that total,
without any error. -/
theorem C77_integers (hemin : emin ≤ 0) (ds : List Nat) (c : List Nat → Nat)
    (h1 : (((indices ds).map c).sum : ℝ) < 2 ^ (p + 1)) (h2 : (((indices ds).map c).sum : ℝ) ≤ 2 ^ emax) :
    (ofFn ds (fun i => ((c i : Nat) : Binary p emin emax))).sumAll =
      .ok (ofFn [1] (fun _ => ((((indices ds).map c).sum : Nat) : Binary p emin emax))) := by
  rw [C10_total]
  refine congrArg Except.ok (ofFn_congr fun _ _ => ?_)
  generalize indices ds = L at *
  induction L using List.reverseRecOn with
  | nil =>
    show (0 : Binary p emin emax) = Binary.round ((0 : Nat) : ℝ)
    unfold Binary.round
    rw [if_pos]
    · have : rnd p emin ((0 : Nat) : ℝ) = 0 := by simp [rnd]
      simp only [this]
      rfl
    · simp [rnd]
      positivity
  | append_singleton L x ih =>
    simp only [List.map_append, List.sum_append, List.map_cons, List.map_nil, List.sum_cons, List.sum_nil, add_zero] at h1 h2 ⊢
    rw [lsum_append_one]
    have hle : ((L.map c).sum : ℝ) ≤ (((L.map c).sum + c x : Nat) : ℝ) := Nat.cast_le.2 (Nat.le_add_right _ _)
    have hle2 : (c x : ℝ) ≤ (((L.map c).sum + c x : Nat) : ℝ) := Nat.cast_le.2 (Nat.le_add_left _ _)
    rw [ih (by linarith) (by linarith)]
    generalize (L.map c).sum = n at *
    obtain ⟨a1, a2⟩ := round_nat (p := p) (emax := emax) hemin n (by linarith) (by linarith)
    obtain ⟨b1, b2⟩ := round_nat (p := p) (emax := emax) hemin (c x) (by linarith) (by linarith)
    show Binary.lift (· + ·) (Binary.round (n : ℝ)) (Binary.round (c x : ℝ)) = Binary.round ((n + c x : Nat) : ℝ)
    rw [Nat.cast_add]
    cases hA : (Binary.round (n : ℝ) : Binary p emin emax) with
    | nonfinite => exact absurd hA a2
    | num a ha =>
      cases hB : (Binary.round (c x : ℝ) : Binary p emin emax) with
      | nonfinite => exact absurd hB b2
      | num b hb =>
        rw [hA] at a1
        rw [hB] at b1
        have a1' : a = (n : ℝ) := a1
        have b1' : b = (c x : ℝ) := b1
        show Binary.round (a + b) = _
        rw [a1', b1']

end

/-- The model is met by a concrete format, that of `float`; adding up a `[2, 3]` tensor of sevens there is finite (and exact). -/
example : ∃ M : FloatModel (Binary 23 (-149) 127) (2 ^ (-23 : Int) / 2) (2 ^ (-149 : Int) / 2),
    (ofFn [2, 3] (fun _ => ((7 : Nat) : Binary 23 (-149) 127))).sumAll =
      .ok (ofFn [1] (fun _ => ((42 : Nat) : Binary 23 (-149) 127))) ∧
    M.fin ((42 : Nat) : Binary 23 (-149) 127) := by
  refine ⟨binary (by norm_num) (by norm_num) (by norm_num), C77_integers (by norm_num) [2, 3] (fun _ => 7) ?_ ?_,
    (round_nat (by norm_num) 42 (by norm_num) (by norm_num)).2⟩ <;>
  · simp only [indices]
    norm_num

end SmartDNN
