import Verif.Proofs.Optimizers
import Mathlib.Tactic.Linarith
import Mathlib.Tactic.Positivity
import Mathlib.Algebra.BigOperators.Ring.Finset
import Mathlib.Analysis.SpecificLimits.Basic

/-!
# Properties of the optimizers (C32-C36)
-/

namespace SmartDNN
open Spec

variable {K : Type} [DecidableEq K]

/-- `n` successive calls with the single tensor `k`: gradients `g i`, overrides `lr i`. -/
def callsOn {T : Type} (k : K) (ds : List Nat) (g : Nat → List Nat → T) (lr : Nat → T) (n : Nat) :
    List (Call K T) :=
  (List.range n).map (fun i => ⟨[k], [ofFn ds (g i)], lr i⟩)

theorem callsOn_succ {T : Type} (k : K) (ds : List Nat) (g : Nat → List Nat → T) (lr : Nat → T) (n : Nat) :
    callsOn k ds g lr (n + 1) = callsOn k ds g lr n ++ [⟨[k], [ofFn ds (g n)], lr n⟩] := by
  simp [callsOn, List.range_succ]

theorem run_callsOn_succ {T : Type} [Zero T] [One T] [Add T] [Sub T] [Mul T] [Div T] [Neg T] [NatCast T]
    [IntCast T] [LT T] [DecidableLT T] [LE T] [DecidableLE T] [DecidableEq T] [MathFn T]
    (w : World K T) (k : K) (ds : List Nat) (g : Nat → List Nat → T) (lr : Nat → T) (n : Nat) :
    w.run (callsOn k ds g lr (n + 1)) =
      (w.run (callsOn k ds g lr n)).bind (fun w => stepPair (lr n) (w.begin (lr n)) (k, ofFn ds (g n))) := by
  rw [callsOn_succ, run_append]
  congr 1
  funext w
  rw [run_single, exec_optimize _ _ rfl, updateTensors_eq]
  simp only [List.zip_cons_cons, List.zip_nil_right, List.foldlM_cons, List.foldlM_nil]
  cases stepPair (lr n) (w.begin (lr n)) (k, ofFn ds (g n)) <;> rfl

/-! ### C32: SGD -/

section SGD
variable {F : Type} [Field F] [LT F] [DecidableLT F] [LE F] [DecidableLE F] [DecidableEq F] [MathFn F]

/-- Every element of the weight follows the SGD recurrence, for every number of calls, all gradients
and all overrides; no other tensor is touched. -/
theorem C32_recurrence (o : SGDOptions F) (mem : K → Tensor F) (k : K) (ds : List Nat) (w0 : List Nat → F)
    (hk : mem k = ofFn ds w0) (g : Nat → List Nat → F) (lr : Nat → F) (n : Nat) :
    ∃ w' : World K F, World.run ⟨mem, .newSGD o⟩ (callsOn k ds g lr n) = .ok w' ∧
      w'.mem = assign mem k (ofFn ds (fun i =>
        (sgd o.momentum o.dampening o.weightDecay o.nesterov
          (fun j => if 0 < lr j then lr j else o.learningRate) (fun j => g j i) (w0 i) n).1)) := by
  let S (n : Nat) (i : List Nat) := sgd o.momentum o.dampening o.weightDecay o.nesterov
          (fun j => if 0 < lr j then lr j else o.learningRate) (fun j => g j i) (w0 i) n
  suffices h : ∃ b : TMap K F, World.run ⟨mem, .newSGD o⟩ (callsOn k ds g lr n) =
      .ok ⟨assign mem k (ofFn ds (fun i => (S n i).1)), .sgd ⟨o, b⟩⟩ ∧
      ∃ v, lookupOrZero b k (shapeOf ds) = ofFn ds v ∧ (o.momentum ≠ 0 → v = fun i => (S n i).2) by
    obtain ⟨b, h, _⟩ := h
    exact ⟨_, h, rfl⟩
  induction n with
  | zero =>
    refine ⟨fun _ => none, ?_, fun _ => 0, full_shapeOf ds 0, fun _ => rfl⟩
    have : assign mem k (ofFn ds (fun i => (S 0 i).1)) = mem := by
      funext j
      unfold assign
      split
      · next h => rw [h, hk]; rfl
      · rfl
    rw [this]
    rfl
  | succ n ih =>
    obtain ⟨b, hr, v, hb, hv⟩ := ih
    rw [run_callsOn_succ, hr]
    simp only [Except.bind, World.begin, stepPair, SGD.updateTensor, assign_same, ofFn_shape, hb,
      sgd_loop_ofFn, Except.bind_ok', Except.pure_eq']
    have hS : ∀ i, S (n + 1) i =
        (let g' := g n i + o.weightDecay * (S n i).1
         let v' := o.momentum * (S n i).2 + (1 - o.dampening) * g'
         ((S n i).1 - (if 0 < lr n then lr n else o.learningRate) *
           (if o.momentum = 0 then g' else if o.nesterov then g' + o.momentum * v' else v'), v')) := fun i => rfl
    have hg : ∀ i, (if o.weightDecay ≠ 0 then g n i + o.weightDecay * (S n i).1 else g n i) =
        g n i + o.weightDecay * (S n i).1 := by
      intro i
      split
      · rfl
      · next h => rw [not_not.1 h]; ring
    have hcell : ∀ i, (sgdCell o (currentLR o.learningRate (lr n)) (g n i) ((S n i).1, v i)).1 = (S (n + 1) i).1 ∧
        (o.momentum ≠ 0 →
          (sgdCell o (currentLR o.learningRate (lr n)) (g n i) ((S n i).1, v i)).2 = (S (n + 1) i).2) := by
      intro i
      rw [hS]
      unfold sgdCell
      dsimp only
      rw [hg]
      by_cases hm : o.momentum = 0
      · simp only [hm, ne_eq, not_true_eq_false, if_false, if_true, false_imp_iff, and_true]
        rfl
      · rw [hv hm]
        simp only [hm, ne_eq, not_false_eq_true, if_true, if_false, true_imp_iff, and_true]
        rfl
    refine ⟨_, congrArg Except.ok (congrArg₂ World.mk ?_ rfl),
      fun i => (sgdCell o (currentLR o.learningRate (lr n)) (g n i) ((S n i).1, v i)).2, ?_, ?_⟩
    · funext j
      unfold assign
      split
      · exact ofFn_congr fun i _ => (hcell i).1
      · rfl
    · simp [lookupOrZero]
    · intro hm
      funext i
      exact (hcell i).2 hm

/-- Without momentum and decay a call is `w - lr * g`. -/
theorem sgd_plain (rate g : Nat → F) (d w0 : F) (nesterov : Bool) (n : Nat) :
    (sgd 0 d 0 nesterov rate g w0 n).1 = w0 - ∑ i ∈ Finset.range n, rate i * g i := by
  induction n with
  | zero => simp [sgd]
  | succ n ih =>
    rw [Finset.sum_range_succ, sgd]
    dsimp only
    rw [ih]
    simp
    ring

/-- With momentum the velocity is the geometrically weighted sum of the gradients. -/
theorem sgd_velocity (mu d : F) (nesterov : Bool) (rate g : Nat → F) (w0 : F) (n : Nat) :
    (sgd mu d 0 nesterov rate g w0 n).2 = ∑ j ∈ Finset.range n, mu ^ (n - 1 - j) * ((1 - d) * g j) := by
  induction n with
  | zero => simp [sgd]
  | succ n ih =>
    rw [Finset.sum_range_succ, sgd]
    dsimp only
    rw [ih, Finset.mul_sum]
    congr 1
    · apply Finset.sum_congr rfl
      intro j hj
      have hj := Finset.mem_range.1 hj
      have : n + 1 - 1 - j = (n - 1 - j) + 1 := by omega
      rw [this, pow_succ]
      ring
    · simp

/-- The weight after `n` steps with constant rate and plain momentum is `w0` minus the rate times the
double geometric sum of the gradients. -/
theorem sgd_momentum_sum (mu d rate : F) (hmu : mu ≠ 0) (g : Nat → F) (w0 : F) (n : Nat) :
    (sgd mu d 0 false (fun _ => rate) g w0 n).1 =
      w0 - rate * ∑ i ∈ Finset.range n, ∑ j ∈ Finset.range (i + 1), mu ^ (i - j) * ((1 - d) * g j) := by
  induction n with
  | zero => simp [sgd]
  | succ n ih =>
    have hv := sgd_velocity mu d false (fun _ => rate) g w0 (n + 1)
    rw [Finset.sum_range_succ, mul_add, ← sub_sub, ← ih]
    rw [sgd] at hv ⊢
    dsimp only at hv ⊢
    simp only [hmu, if_false, Bool.false_eq_true]
    rw [hv]
    simp

/-- Nesterov: every step uses the corrected gradient plus `mu` times the new velocity. -/
theorem sgd_nesterov_sum (mu d rate : F) (hmu : mu ≠ 0) (g : Nat → F) (w0 : F) (n : Nat) :
    (sgd mu d 0 true (fun _ => rate) g w0 n).1 =
      w0 - rate * ∑ i ∈ Finset.range n,
        (g i + mu * ∑ j ∈ Finset.range (i + 1), mu ^ (i - j) * ((1 - d) * g j)) := by
  induction n with
  | zero => simp [sgd]
  | succ n ih =>
    have hv := sgd_velocity mu d true (fun _ => rate) g w0 (n + 1)
    rw [Finset.sum_range_succ, mul_add, ← sub_sub, ← ih]
    rw [sgd] at hv ⊢
    dsimp only at hv ⊢
    simp only [hmu, if_false, if_true]
    rw [hv]
    simp

/-- Calls without momentum and decay subtract rate times gradient. -/
theorem C32_plain (o : SGDOptions F) (hm : o.momentum = 0) (hd : o.weightDecay = 0) (mem : K → Tensor F) (k : K) (ds : List Nat)
    (w0 : List Nat → F) (hk : mem k = ofFn ds w0) (g : Nat → List Nat → F) (lr : Nat → F) (n : Nat) :
    ∃ w' : World K F, World.run ⟨mem, .newSGD o⟩ (callsOn k ds g lr n) = .ok w' ∧
      w'.mem = assign mem k (ofFn ds fun i => w0 i - ∑ j ∈ Finset.range n, (if 0 < lr j then lr j else o.learningRate) * g j i) := by
  obtain ⟨w', h1, h2⟩ := C32_recurrence o mem k ds w0 hk g lr n
  refine ⟨w', h1, ?_⟩
  simp only [hm, hd, sgd_plain] at h2
  exact h2

/-- With momentum and the configured rate, the weight after `n` calls is `w0` minus the rate times the double geometric sum
of the gradients. -/
theorem C32_momentum (o : SGDOptions F) (hm : o.momentum ≠ 0) (hd : o.weightDecay = 0) (hn : o.nesterov = false) (mem : K → Tensor F)
    (k : K) (ds : List Nat) (w0 : List Nat → F) (hk : mem k = ofFn ds w0) (g : Nat → List Nat → F) (lr : Nat → F)
    (hlr : ∀ j, ¬ 0 < lr j) (n : Nat) :
    ∃ w' : World K F, World.run ⟨mem, .newSGD o⟩ (callsOn k ds g lr n) = .ok w' ∧
      w'.mem = assign mem k (ofFn ds fun i => w0 i - o.learningRate * ∑ j ∈ Finset.range n, ∑ l ∈ Finset.range (j + 1),
        o.momentum ^ (j - l) * ((1 - o.dampening) * g l i)) := by
  obtain ⟨w', h1, h2⟩ := C32_recurrence o mem k ds w0 hk g lr n
  refine ⟨w', h1, ?_⟩
  simp only [hd, hn, hlr, if_false, sgd_momentum_sum _ _ _ hm] at h2
  exact h2

/-- Nesterov: every call uses the gradient plus the momentum times the new velocity. -/
theorem C32_nesterov (o : SGDOptions F) (hm : o.momentum ≠ 0) (hd : o.weightDecay = 0) (hn : o.nesterov = true) (mem : K → Tensor F)
    (k : K) (ds : List Nat) (w0 : List Nat → F) (hk : mem k = ofFn ds w0) (g : Nat → List Nat → F) (lr : Nat → F)
    (hlr : ∀ j, ¬ 0 < lr j) (n : Nat) :
    ∃ w' : World K F, World.run ⟨mem, .newSGD o⟩ (callsOn k ds g lr n) = .ok w' ∧
      w'.mem = assign mem k (ofFn ds fun i => w0 i - o.learningRate * ∑ j ∈ Finset.range n,
        (g j i + o.momentum * ∑ l ∈ Finset.range (j + 1), o.momentum ^ (j - l) * ((1 - o.dampening) * g l i))) := by
  obtain ⟨w', h1, h2⟩ := C32_recurrence o mem k ds w0 hk g lr n
  refine ⟨w', h1, ?_⟩
  simp only [hd, hn, hlr, if_false, sgd_nesterov_sum _ _ _ hm] at h2
  exact h2

end SGD

/-- Two steps on a 2-element tensor with momentum 1/2, decay 0, rate 1. -/
example : (sgd (1/2 : ℚ) 0 0 false (fun _ => 1) (fun _ => 4) 10 2).1 = 0 := by
  norm_num [sgd]

noncomputable example : ∃ w' : World Nat ℝ,
    World.run ⟨fun _ => ofFn [2] (fun _ => 10), .newSGD ⟨1, 1/2, 0, 0, false⟩⟩
      (callsOn 7 [2] (fun _ _ => 4) (fun _ => -1) 2) = .ok w' ∧ w'.mem 7 = ofFn [2] (fun _ => 0) := by
  obtain ⟨w', h, hm⟩ := C32_recurrence (K := Nat) (F := ℝ) ⟨1, 1/2, 0, 0, false⟩ (fun _ => ofFn [2] (fun _ => 10)) 7 [2]
    (fun _ => 10) rfl (fun _ _ => 4) (fun _ => -1) 2
  refine ⟨w', h, ?_⟩
  rw [hm, assign_same]
  apply ofFn_congr
  intro i _
  norm_num [sgd]

/-! ### C33: RMSProp -/

/-- The weight and the buffers after `n` calls. -/
theorem rms_state (o : RMSPropOptions ℝ) (mem : K → Tensor ℝ) (k : K) (ds : List Nat) (w0 : List Nat → ℝ)
    (hk : mem k = ofFn ds w0) (g : Nat → List Nat → ℝ) (lr : Nat → ℝ) (n : Nat) :
    let S (n : Nat) (i : List Nat) := rmsprop o.alpha o.epsilon o.momentum o.weightDecay o.centered
          (fun j => if 0 < lr j then lr j else o.learningRate) (fun j => g j i) (w0 i) n
    ∃ b : RMSProp K ℝ, World.run ⟨mem, .newRMSProp o⟩ (callsOn k ds g lr n) =
      .ok ⟨assign mem k (ofFn ds (fun i => (S n i).w)), .rmsprop b⟩ ∧ b.opts = o ∧
      lookupOrZero b.squaredGrads k (shapeOf ds) = ofFn ds (fun i => (S n i).sq) ∧
      (∃ m, lookupOrZero b.meanGrads k (shapeOf ds) = ofFn ds m ∧ (o.centered → m = fun i => (S n i).mean)) ∧
      (∃ v, lookupOrZero b.velocityBuffers k (shapeOf ds) = ofFn ds v ∧
        (0 < o.momentum → v = fun i => (S n i).vel)) := by
  intro S
  induction n with
  | zero =>
    refine ⟨⟨o, fun _ => none, fun _ => none, fun _ => none⟩, ?_, rfl, full_shapeOf ds 0,
      ⟨fun _ => 0, full_shapeOf ds 0, fun _ => rfl⟩, ⟨fun _ => 0, full_shapeOf ds 0, fun _ => rfl⟩⟩
    have : assign mem k (ofFn ds (fun i => (S 0 i).w)) = mem := by
      funext j
      unfold assign
      split
      · next h => rw [h, hk]; rfl
      · rfl
    rw [this]
    rfl
  | succ n ih =>
    obtain ⟨b, hr, hbo, hq, ⟨m, hm, hm'⟩, ⟨v, hv, hv'⟩⟩ := ih
    rw [run_callsOn_succ, hr]
    simp only [Except.bind, World.begin, stepPair, RMSProp.updateTensor, assign_same, ofFn_shape, hq, hm, hv, hbo,
      rms_loop_ofFn, Except.bind_ok', Except.pure_eq']
    have hg : ∀ i, (if o.weightDecay ≠ 0 then g n i + o.weightDecay * (S n i).w else g n i) =
        g n i + o.weightDecay * (S n i).w := by
      intro i
      split
      · rfl
      · next h => rw [not_not.1 h]; ring
    have hcell : ∀ i, let c := rmsCell o (currentLR o.learningRate (lr n)) (g n i) ((S n i).w, (S n i).sq, m i, v i)
        c.1 = (S (n + 1) i).w ∧ c.2.1 = (S (n + 1) i).sq ∧ (o.centered → c.2.2.1 = (S (n + 1) i).mean) ∧
        (0 < o.momentum → c.2.2.2 = (S (n + 1) i).vel) := by
      intro i
      have hS : S (n + 1) i =
        (let g' := g n i + o.weightDecay * (S n i).w
         let sq := o.alpha * (S n i).sq + (1 - o.alpha) * g' ^ 2
         let mean := o.alpha * (S n i).mean + (1 - o.alpha) * g'
         let u := g' / Real.sqrt (sq - (if o.centered then mean ^ 2 else 0) + o.epsilon)
         let vel := o.momentum * (S n i).vel + u
         ⟨(S n i).w - (if 0 < lr n then lr n else o.learningRate) * (if 0 < o.momentum then vel else u),
          sq, mean, vel⟩) := rfl
      rw [hS]
      unfold rmsCell
      dsimp only
      rw [hg]
      generalize g n i + o.weightDecay * (S n i).w = G
      have hs2 : o.alpha * (S n i).sq + (1 - o.alpha) * G * G = o.alpha * (S n i).sq + (1 - o.alpha) * G ^ 2 := by
        ring
      rw [hs2]
      by_cases hc : o.centered = true
      · rw [hm' hc]
        by_cases h0 : 0 < o.momentum
        · rw [hv' h0]
          simp only [hc, h0, if_true, true_imp_iff, and_true, pow_two]
          exact ⟨rfl, trivial, trivial, rfl⟩
        · simp only [hc, h0, if_true, if_false, true_imp_iff, false_imp_iff, and_true, pow_two]
          rfl
      · by_cases h0 : 0 < o.momentum
        · rw [hv' h0]
          simp only [hc, h0, if_true, if_false, true_imp_iff, false_imp_iff, and_true, sub_zero, Bool.false_eq_true]
          exact ⟨rfl, trivial, trivial, rfl⟩
        · simp only [hc, h0, if_true, if_false, true_imp_iff, false_imp_iff, and_true, sub_zero, Bool.false_eq_true]
          rfl
    refine ⟨_, congrArg Except.ok (congrArg₂ World.mk ?_ rfl), rfl, ?_, ?_, ?_⟩
    · funext j
      unfold assign
      split
      · exact ofFn_congr fun i _ => (hcell i).1
      · rfl
    · simp only [lookupOrZero, assign_same]
      exact ofFn_congr fun i _ => (hcell i).2.1
    · by_cases hc : o.centered = true
      · refine ⟨_, by simp only [hc, if_true, lookupOrZero, assign_same]; rfl, fun _ => ?_⟩
        funext i
        exact (hcell i).2.2.1 hc
      · exact ⟨m, by simp only [hc]; exact hm, fun h => absurd h hc⟩
    · by_cases h0 : 0 < o.momentum
      · refine ⟨_, by simp only [h0, if_true, lookupOrZero, assign_same]; rfl, fun _ => ?_⟩
        funext i
        exact (hcell i).2.2.2 h0
      · exact ⟨v, by simp only [h0, if_false]; exact hv, fun h => absurd h h0⟩

/-- Every element of the weight follows the RMSProp recurrence. -/
theorem C33_recurrence (o : RMSPropOptions ℝ) (mem : K → Tensor ℝ) (k : K) (ds : List Nat) (w0 : List Nat → ℝ)
    (hk : mem k = ofFn ds w0) (g : Nat → List Nat → ℝ) (lr : Nat → ℝ) (n : Nat) :
    ∃ w' : World K ℝ, World.run ⟨mem, .newRMSProp o⟩ (callsOn k ds g lr n) = .ok w' ∧
      w'.mem = assign mem k (ofFn ds (fun i =>
        (rmsprop o.alpha o.epsilon o.momentum o.weightDecay o.centered
          (fun j => if 0 < lr j then lr j else o.learningRate) (fun j => g j i) (w0 i) n).w)) := by
  obtain ⟨b, h, _⟩ := rms_state o mem k ds w0 hk g lr n
  exact ⟨_, h, rfl⟩

/-- Over every history the running square average is non-negative and at least the square of the
running mean. -/
theorem rmsprop_nonneg {alpha eps mu wd : ℝ} {centered : Bool} (h0 : 0 ≤ alpha) (h1 : alpha ≤ 1)
    (rate g : Nat → ℝ) (w0 : ℝ) (n : Nat) :
    let s := rmsprop alpha eps mu wd centered rate g w0 n
    0 ≤ s.sq ∧ s.mean ^ 2 ≤ s.sq := by
  induction n with
  | zero => simp [rmsprop]
  | succ n ih =>
    rw [rmsprop]
    dsimp only at ih ⊢
    set s := rmsprop alpha eps mu wd centered rate g w0 n with hs
    obtain ⟨ih1, ih2⟩ := ih
    set G := g n + wd * s.w
    have h2 : 0 ≤ 1 - alpha := by linarith
    refine ⟨by positivity, ?_⟩
    have h3 : alpha * s.sq + (1 - alpha) * G ^ 2 - (alpha * s.mean + (1 - alpha) * G) ^ 2 =
        alpha * (s.sq - s.mean ^ 2) + alpha * (1 - alpha) * (s.mean - G) ^ 2 := by ring
    have h4 : 0 ≤ alpha * (s.sq - s.mean ^ 2) := mul_nonneg h0 (by linarith)
    have h5 : 0 ≤ alpha * (1 - alpha) * (s.mean - G) ^ 2 := by positivity
    linarith

/-- Every square root is taken of a positive number (at least epsilon), centered or not. -/
theorem rmsprop_sqrt_argument {alpha eps mu wd : ℝ} {centered : Bool} (h0 : 0 ≤ alpha) (h1 : alpha ≤ 1)
    (rate g : Nat → ℝ) (w0 : ℝ) (n : Nat) :
    let s := rmsprop alpha eps mu wd centered rate g w0 n
    eps ≤ s.sq - (if centered then s.mean ^ 2 else 0) + eps := by
  have := rmsprop_nonneg (eps := eps) (mu := mu) (wd := wd) (centered := centered) h0 h1 rate g w0 n
  dsimp only at this ⊢
  split <;> linarith [this.1, this.2]

/-- Plain RMSProp without momentum: no element moves further than `rate / sqrt (1 - alpha)` in a call. -/
theorem rmsprop_step_bound {alpha eps wd mu : ℝ} (h0 : 0 ≤ alpha) (h1 : alpha < 1) (he : 0 < eps) (hmu : mu ≤ 0)
    (rate g : Nat → ℝ) (w0 : ℝ) (n : Nat) (hr : 0 ≤ rate n) :
    |(rmsprop alpha eps mu wd false rate g w0 (n + 1)).w - (rmsprop alpha eps mu wd false rate g w0 n).w| ≤
      rate n / Real.sqrt (1 - alpha) := by
  have hq := (rmsprop_nonneg (eps := eps) (mu := mu) (wd := wd) (centered := false) h0 h1.le rate g w0 n).1
  rw [rmsprop]
  dsimp only at hq ⊢
  set s := rmsprop alpha eps mu wd false rate g w0 n with hs
  set G := g n + wd * s.w
  rw [if_neg (by linarith)]
  simp only [Bool.false_eq_true, if_false, sub_zero]
  set D := alpha * s.sq + (1 - alpha) * G ^ 2 + eps with hD
  have ha : 0 < 1 - alpha := by linarith
  have hDpos : 0 < D := by positivity
  have hle : (1 - alpha) * G ^ 2 ≤ D := by
    have : 0 ≤ alpha * s.sq := mul_nonneg h0 hq
    linarith
  have habs : |s.w - rate n * (G / Real.sqrt D) - s.w| = rate n * (|G| / Real.sqrt D) := by
    rw [sub_right_comm, sub_self, zero_sub, abs_neg, abs_mul, abs_of_nonneg hr, abs_div,
      abs_of_nonneg (Real.sqrt_nonneg _)]
  rw [habs, div_eq_mul_one_div (rate n)]
  apply mul_le_mul_of_nonneg_left _ hr
  rw [div_le_div_iff₀ (Real.sqrt_pos.2 hDpos) (Real.sqrt_pos.2 ha), one_mul]
  have : |G| * Real.sqrt (1 - alpha) = Real.sqrt ((1 - alpha) * G ^ 2) := by
    rw [Real.sqrt_mul ha.le, Real.sqrt_sq_eq_abs, mul_comm]
  rw [this]
  exact Real.sqrt_le_sqrt hle

/-- Over every history of calls, the running average of squares that the optimizer keeps is non-negative, and with centering it is
at least the square of the running mean it keeps: the square root of the next step is taken of a number that is at least epsilon. -/
theorem C33_nonneg (o : RMSPropOptions ℝ) (h0 : 0 ≤ o.alpha) (h1 : o.alpha ≤ 1) (mem : K → Tensor ℝ) (k : K) (ds : List Nat)
    (w0 : List Nat → ℝ) (hk : mem k = ofFn ds w0) (g : Nat → List Nat → ℝ) (lr : Nat → ℝ) (n : Nat) :
    ∃ (mem' : K → Tensor ℝ) (b : RMSProp K ℝ) (sq mean : List Nat → ℝ),
      World.run ⟨mem, .newRMSProp o⟩ (callsOn k ds g lr n) = .ok ⟨mem', .rmsprop b⟩ ∧
      lookupOrZero b.squaredGrads k (shapeOf ds) = ofFn ds sq ∧ lookupOrZero b.meanGrads k (shapeOf ds) = ofFn ds mean ∧
      ∀ i, 0 ≤ sq i ∧ (o.centered → mean i ^ 2 ≤ sq i) := by
  obtain ⟨b, h, -, hs, ⟨m, hm, hm'⟩, -⟩ := rms_state o mem k ds w0 hk g lr n
  refine ⟨_, b, _, m, h, hs, hm, fun i => ?_⟩
  have := rmsprop_nonneg (eps := o.epsilon) (mu := o.momentum) (wd := o.weightDecay) (centered := o.centered) h0 h1
    (fun j => if 0 < lr j then lr j else o.learningRate) (fun j => g j i) (w0 i) n
  refine ⟨this.1, fun hc => ?_⟩
  rw [hm' hc]
  exact this.2

/-- In terms of the library: two consecutive states of any history of calls on a fresh optimizer. -/
theorem C33_library_bound (o : RMSPropOptions ℝ) (h0 : 0 ≤ o.alpha) (h1 : o.alpha < 1) (he : 0 < o.epsilon)
    (hm : o.momentum ≤ 0) (hc : o.centered = false) (hlr : 0 ≤ o.learningRate)
    (mem : K → Tensor ℝ) (k : K) (ds : List Nat) (w0 : List Nat → ℝ)
    (hk : mem k = ofFn ds w0) (g : Nat → List Nat → ℝ) (lr : Nat → ℝ) (n : Nat) :
    ∃ (a b : World K ℝ) (u v : List Nat → ℝ),
      World.run ⟨mem, .newRMSProp o⟩ (callsOn k ds g lr n) = .ok a ∧
      World.run ⟨mem, .newRMSProp o⟩ (callsOn k ds g lr (n + 1)) = .ok b ∧
      a.mem k = ofFn ds u ∧ b.mem k = ofFn ds v ∧
      ∀ i, |v i - u i| ≤ (if 0 < lr n then lr n else o.learningRate) / Real.sqrt (1 - o.alpha) := by
  obtain ⟨a, ha, hma⟩ := C33_recurrence o mem k ds w0 hk g lr n
  obtain ⟨b, hb, hmb⟩ := C33_recurrence o mem k ds w0 hk g lr (n + 1)
  refine ⟨a, b, _, _, ha, hb, by rw [hma, assign_same], by rw [hmb, assign_same], fun i => ?_⟩
  rw [hc]
  apply rmsprop_step_bound h0 h1 he hm
  split
  · next h => exact h.le
  · exact hlr

/-- Centered RMSProp has no such bound: with `alpha = 1/2`, `epsilon = 1/10000`, learning rate 1 and the
constant gradient 1 the 7th call moves the weight by more than 8 > 1 / sqrt (1/2). -/
theorem rmsprop_centered_unbounded :
    let s := rmsprop (1/2) (1/10000) 0 0 true (fun _ => 1) (fun _ => 1) 0
    1 / Real.sqrt (1 - 1/2) < |(s 7).w - (s 6).w| := by
  dsimp only
  have e : ∀ n, (rmsprop (1/2) (1/10000) 0 0 true (fun _ => 1) (fun _ => 1) 0 n).sq = 1 - (1/2) ^ n ∧
      (rmsprop (1/2) (1/10000) 0 0 true (fun _ => 1) (fun _ => 1) 0 n).mean = 1 - (1/2) ^ n := by
    intro n
    induction n with
    | zero => simp [rmsprop]
    | succ n ih =>
      rw [rmsprop]
      dsimp only
      rw [ih.1, ih.2]
      constructor <;> ring
  have h7 : (rmsprop (1/2) (1/10000) 0 0 true (fun _ => 1) (fun _ => 1) 0 7).w -
      (rmsprop (1/2) (1/10000) 0 0 true (fun _ => 1) (fun _ => 1) 0 6).w =
      - (1 / Real.sqrt ((1 - (1/2 : ℝ) ^ 7) - (1 - (1/2) ^ 7) ^ 2 + 1/10000)) := by
    rw [rmsprop]
    dsimp only
    rw [(e 6).1, (e 6).2]
    simp only [lt_irrefl, if_false, if_true]
    have : (1/2 : ℝ) * (1 - (1 / 2) ^ 6) + (1 - 1 / 2) * (1 + 0 * (rmsprop (1/2) (1/10000) 0 0 true (fun _ => 1) (fun _ => 1) 0 6).w) ^ 2 = 1 - (1/2) ^ 7 := by
      ring
    rw [this]
    have : (1/2 : ℝ) * (1 - (1 / 2) ^ 6) + (1 - 1 / 2) * (1 + 0 * (rmsprop (1/2) (1/10000) 0 0 true (fun _ => 1) (fun _ => 1) 0 6).w) = 1 - (1/2) ^ 7 := by
      ring
    rw [this]
    ring
  rw [h7, abs_neg, abs_of_pos (by apply div_pos one_pos; apply Real.sqrt_pos.2; norm_num)]
  apply one_div_lt_one_div_of_lt
  · apply Real.sqrt_pos.2; norm_num
  · apply Real.sqrt_lt_sqrt <;> norm_num

/-- The same in terms of the library. -/
theorem C33_centered_unbounded :
    ∃ (a b : World Nat ℝ) (u v : ℝ),
      World.run ⟨fun _ => ofFn [1] (fun _ => 0), .newRMSProp ⟨1, 1/2, 1/10000, 0, true, 0⟩⟩
        (callsOn 0 [1] (fun _ _ => 1) (fun _ => -1) 6) = .ok a ∧
      World.run ⟨fun _ => ofFn [1] (fun _ => 0), .newRMSProp ⟨1, 1/2, 1/10000, 0, true, 0⟩⟩
        (callsOn 0 [1] (fun _ _ => 1) (fun _ => -1) 7) = .ok b ∧
      a.mem 0 = ofFn [1] (fun _ => u) ∧ b.mem 0 = ofFn [1] (fun _ => v) ∧ 1 / Real.sqrt (1 - 1/2) < |v - u| := by
  obtain ⟨a, ha, hma⟩ := C33_recurrence (K := Nat) ⟨1, 1/2, 1/10000, 0, true, 0⟩ (fun _ => ofFn [1] (fun _ => 0)) 0 [1] (fun _ => 0) rfl
    (fun _ _ => 1) (fun _ => -1) 6
  obtain ⟨b, hb, hmb⟩ := C33_recurrence (K := Nat) ⟨1, 1/2, 1/10000, 0, true, 0⟩ (fun _ => ofFn [1] (fun _ => 0)) 0 [1] (fun _ => 0) rfl
    (fun _ _ => 1) (fun _ => -1) 7
  have hr : (fun _ : Nat => if (0 : ℝ) < -1 then (-1 : ℝ) else 1) = fun _ => 1 := by norm_num
  simp only [hr] at hma hmb
  exact ⟨a, b, _, _, ha, hb, by rw [hma, assign_same], by rw [hmb, assign_same], rmsprop_centered_unbounded⟩

noncomputable example : ∃ (a b : World Nat ℝ) (u v : List Nat → ℝ),
      World.run ⟨fun _ => ofFn [2, 2] (fun _ => 1), .newRMSProp ⟨1/100, 99/100, 1/1000, 0, false, 1/10⟩⟩
        (callsOn 5 [2, 2] (fun j _ => (j : ℝ)) (fun _ => -1) 9) = .ok a ∧
      World.run ⟨fun _ => ofFn [2, 2] (fun _ => 1), .newRMSProp ⟨1/100, 99/100, 1/1000, 0, false, 1/10⟩⟩
        (callsOn 5 [2, 2] (fun j _ => (j : ℝ)) (fun _ => -1) 10) = .ok b ∧
      a.mem 5 = ofFn [2, 2] u ∧ b.mem 5 = ofFn [2, 2] v ∧
      ∀ i, |v i - u i| ≤ (if (0 : ℝ) < -1 then -1 else 1/100) / Real.sqrt (1 - 99/100) :=
  C33_library_bound (K := Nat) ⟨1/100, 99/100, 1/1000, 0, false, 1/10⟩ (by norm_num) (by norm_num) (by norm_num)
    (by norm_num) rfl (by norm_num) _ 5 [2, 2] _ rfl _ _ 9

/-! ### C34: Adam -/

/-- `n` calls of which call `i` includes the tensor `k` (gradient `some g`) or only other tensors
(`none`; see C35 for why nothing else about such calls matters). -/
def callOpt {T : Type} (k : K) (ds : List Nat) (g : Nat → Option (List Nat → T)) (lr : Nat → T) (i : Nat) :
    Call K T :=
  match g i with
  | none => ⟨[], [], lr i⟩
  | some f => ⟨[k], [ofFn ds f], lr i⟩

/-- See `callOpt`. -/
def callsOpt {T : Type} (k : K) (ds : List Nat) (g : Nat → Option (List Nat → T)) (lr : Nat → T) (n : Nat) :
    List (Call K T) :=
  (List.range n).map (callOpt k ds g lr)

/-- The factor by which the library's step differs from the published one. -/
noncomputable def adamFactor (o : AdamOptions ℝ) (t : Nat) : ℝ :=
  Real.sqrt (1 - max (o.beta2 ^ t) o.tiny) / (1 - max (o.beta1 ^ t) o.tiny)

/-- The rate of call `i` (counted from 0): a positive override, else the decayed configured rate. -/
noncomputable def adamRate (o : AdamOptions ℝ) (lr : Nat → ℝ) (i : Nat) : ℝ :=
  if 0 < lr i then lr i
  else if 0 < o.decay then o.learningRate / (1 + o.decay * (i + 1)) else o.learningRate

theorem cmax_eq_max (a b : ℝ) : cmax a b = max a b := by
  unfold cmax
  split
  · next h => rw [max_eq_right h.le]
  · next h => rw [max_eq_left (not_lt.1 h)]

/-- One element of Adam's loop in mathematical notation. -/
theorem adamCell_eq (o : AdamOptions ℝ) (lr : ℝ) (t : Nat) (g w m v : ℝ) :
    adamCell o lr t g (w, m, v) =
      (let a := g / (o.batchSize : ℝ)
       let m' := o.beta1 * m + (1 - o.beta1) * a
       let v' := o.beta2 * v + (1 - o.beta2) * a ^ 2
       (w - (lr * adamFactor o t * (m' / (1 - o.beta1 ^ t)) / (Real.sqrt (v' / (1 - o.beta2 ^ t)) + o.epsilon) +
          lr * max o.l1Strength 0 * Spec.sign w + lr * max o.l2Strength 0 * w), m', v')) := by
  unfold adamCell Adam.updateParameter Adam.alphaT adamFactor
  dsimp only
  simp only [cmax_eq_max]
  have hp : ∀ (b : ℝ) (k : Nat), MathFn.powi b k = b ^ k := fun _ _ => rfl
  have hs : ∀ x : ℝ, MathFn.sqrt x = Real.sqrt x := fun _ => rfl
  simp only [hp, hs]
  have hv : o.beta2 * v + (1 - o.beta2) * (g / (o.batchSize : ℝ)) * (g / (o.batchSize : ℝ)) =
    o.beta2 * v + (1 - o.beta2) * (g / (o.batchSize : ℝ)) ^ 2 := by ring
  rw [hv]
  refine Prod.ext ?_ rfl
  dsimp only
  have h1 : ∀ x : ℝ, (if 0 < o.l1Strength then x + lr * o.l1Strength *
      (if 0 < w then 1 else if w < 0 then -1 else 0) else x) = x + lr * max o.l1Strength 0 * Spec.sign w := by
    intro x
    split
    · next h => rw [max_eq_left h.le]; rfl
    · next h => rw [max_eq_right (not_lt.1 h)]; ring
  have h2 : ∀ x : ℝ, (if 0 < o.l2Strength then x + lr * o.l2Strength * w else x) =
      x + lr * max o.l2Strength 0 * w := by
    intro x
    split
    · next h => rw [max_eq_left h.le]
    · next h => rw [max_eq_right (not_lt.1 h)]; ring
  rw [h1, h2]
  ring

/-- The weight and the buffers after `n` calls. -/
theorem adam_state (o : AdamOptions ℝ) (mem : K → Tensor ℝ) (k : K) (ds : List Nat)
    (w0 : List Nat → ℝ) (hk : mem k = ofFn ds w0) (g : Nat → Option (List Nat → ℝ)) (lr : Nat → ℝ) (n : Nat) :
    let G (i : List Nat) : Nat → Option ℝ := fun j => (g j).map (fun f => f i / (o.batchSize : ℝ))
    let W (n : Nat) (i : List Nat) := adam (adamFactor o) o.beta1 o.beta2 o.epsilon o.l1Strength o.l2Strength
      (adamRate o lr) (G i) (w0 i) n
    let M (n : Nat) (i : List Nat) := ema o.beta1 (G i) n
    let V (n : Nat) (i : List Nat) := ema o.beta2 (fun j => (G i j).map (· ^ 2)) n
    ∃ b : Adam K ℝ, World.run ⟨mem, .newAdam o⟩ (callsOpt k ds g lr n) =
      .ok ⟨assign mem k (ofFn ds (W n)), .adam b⟩ ∧ b.opts = o ∧ b.iterations = n ∧
      lookupOrZero b.m k (shapeOf ds) = ofFn ds (M n) ∧ lookupOrZero b.v k (shapeOf ds) = ofFn ds (V n) := by
  intro G W M V
  induction n with
  | zero =>
    refine ⟨⟨o, o.learningRate, 0, fun _ => none, fun _ => none⟩, ?_, rfl, rfl, full_shapeOf ds 0, full_shapeOf ds 0⟩
    have : assign mem k (ofFn ds (W 0)) = mem := by
      funext j
      unfold assign
      split
      · next h => rw [h, hk]; rfl
      · rfl
    rw [this]
    rfl
  | succ n ih =>
    obtain ⟨b, hr, hbo, hbi, hm, hv⟩ := ih
    have hcalls : callsOpt k ds g lr (n + 1) = callsOpt k ds g lr n ++ [callOpt k ds g lr n] := by
      simp [callsOpt, List.range_succ]
    rw [hcalls, run_append, hr]
    have hrate : (b.updateLearningRate (lr n)).learningRate = adamRate o lr n := by
      unfold Adam.updateLearningRate adamRate
      dsimp only
      rw [hbo, hbi]
      by_cases h : 0 < lr n
      · rw [if_neg (not_le.2 h), if_pos h]
      · rw [if_pos (not_lt.1 h), if_neg h]
        split
        · push_cast; ring
        · ring
    simp only [Except.bind]
    rw [run_single]
    unfold callOpt
    cases hg : g n with
    | none =>
      have hGn : ∀ i, G i n = none := fun i => by simp [G, hg]
      have hW : W (n + 1) = W n := by
        funext i
        show adam _ _ _ _ _ _ _ (G i) _ (n + 1) = adam _ _ _ _ _ _ _ (G i) _ n
        rw [adam, hGn]
      have hM : M (n + 1) = M n := by
        funext i
        show ema _ (G i) (n + 1) = ema _ (G i) n
        rw [ema, hGn]
      have hV : V (n + 1) = V n := by
        funext i
        show ema _ (fun j => (G i j).map (· ^ 2)) (n + 1) = ema _ (fun j => (G i j).map (· ^ 2)) n
        rw [ema, hGn]
        rfl
      rw [hW, hM, hV]
      dsimp only
      rw [exec_optimize _ _ rfl]
      exact ⟨b.updateLearningRate (lr n), rfl, hbo, by show b.iterations + 1 = _; rw [hbi], hm, hv⟩
    | some f =>
      have hGn : ∀ i, G i n = some (f i / (o.batchSize : ℝ)) := fun i => by simp [G, hg]
      have hM : ∀ i, M (n + 1) i = o.beta1 * M n i + (1 - o.beta1) * (f i / (o.batchSize : ℝ)) := by
        intro i
        show ema _ (G i) (n + 1) = _
        rw [ema, hGn]
      have hV : ∀ i, V (n + 1) i = o.beta2 * V n i + (1 - o.beta2) * (f i / (o.batchSize : ℝ)) ^ 2 := by
        intro i
        show ema _ (fun j => (G i j).map (· ^ 2)) (n + 1) = _
        rw [ema, hGn]
        rfl
      have hW : ∀ i, W (n + 1) i = W n i - (adamRate o lr n * adamFactor o (n + 1) *
          (M (n + 1) i / (1 - o.beta1 ^ (n + 1))) / (Real.sqrt (V (n + 1) i / (1 - o.beta2 ^ (n + 1))) + o.epsilon) +
          adamRate o lr n * max o.l1Strength 0 * Spec.sign (W n i) +
          adamRate o lr n * max o.l2Strength 0 * W n i) := by
        intro i
        show adam _ _ _ _ _ _ _ (G i) _ (n + 1) = _
        rw [adam, hGn]
      dsimp only
      rw [exec_optimize _ _ rfl, updateTensors_eq]
      simp only [List.zip_cons_cons, List.zip_nil_right, List.foldlM_cons, List.foldlM_nil, World.begin, stepPair,
        Adam.updateTensor, assign_same, ofFn_shape]
      have e1 : (b.updateLearningRate (lr n)).m = b.m := rfl
      have e2 : (b.updateLearningRate (lr n)).v = b.v := rfl
      have e3 : (b.updateLearningRate (lr n)).opts = o := hbo
      have e4 : (b.updateLearningRate (lr n)).iterations = n + 1 := by show b.iterations + 1 = _; rw [hbi]
      rw [e1, e2, e3, e4, hrate, hm, hv, adam_loop_ofFn]
      simp only [Except.bind_ok', Except.pure_eq', adamCell_eq, ← hM, ← hV, ← hW]
      refine ⟨_, congrArg Except.ok (congrArg₂ World.mk ?_ rfl), rfl, rfl, ?_, ?_⟩
      · funext j
        unfold assign
        split <;> rfl
      · simp [lookupOrZero]
      · simp [lookupOrZero]

/-- What the library computes, for every history: Adam's moments and bias corrections, but with the step
multiplied by `sqrt(1 - beta2^t) / (1 - beta1^t)` on top.  (Missing for C34: that factor should be 1.) -/
theorem C34_trajectory_partial (o : AdamOptions ℝ) (mem : K → Tensor ℝ) (k : K) (ds : List Nat)
    (w0 : List Nat → ℝ) (hk : mem k = ofFn ds w0) (g : Nat → Option (List Nat → ℝ)) (lr : Nat → ℝ) (n : Nat) :
    ∃ w' : World K ℝ, World.run ⟨mem, .newAdam o⟩ (callsOpt k ds g lr n) = .ok w' ∧
      w'.mem = assign mem k (ofFn ds (fun i =>
        adam (adamFactor o) o.beta1 o.beta2 o.epsilon o.l1Strength o.l2Strength (adamRate o lr)
          (fun j => (g j).map (fun f => f i / (o.batchSize : ℝ))) (w0 i) n)) := by
  obtain ⟨b, h, _⟩ := adam_state o mem k ds w0 hk g lr n
  exact ⟨_, h, rfl⟩

/-- The moments are the exponentially weighted sums of the gradients. -/
theorem ema_sum (beta : ℝ) (g : Nat → ℝ) (n : Nat) :
    ema beta (fun i => some (g i)) n = (1 - beta) * ∑ j ∈ Finset.range n, beta ^ (n - 1 - j) * g j := by
  induction n with
  | zero => simp [ema]
  | succ n ih =>
    rw [ema, Finset.sum_range_succ, ih]
    dsimp only
    have : ∑ j ∈ Finset.range n, beta ^ (n + 1 - 1 - j) * g j =
        beta * ∑ j ∈ Finset.range n, beta ^ (n - 1 - j) * g j := by
      rw [Finset.mul_sum]
      apply Finset.sum_congr rfl
      intro j hj
      have hj := Finset.mem_range.1 hj
      have : n + 1 - 1 - j = (n - 1 - j) + 1 := by omega
      rw [this, pow_succ]
      ring
    rw [this]
    simp
    ring

/-- The moments the optimizer keeps are the exponentially weighted sums of the gradients (divided by the batch size) and of
their squares. -/
theorem C34_moments (o : AdamOptions ℝ) (mem : K → Tensor ℝ) (k : K) (ds : List Nat)
    (w0 : List Nat → ℝ) (hk : mem k = ofFn ds w0) (g : Nat → List Nat → ℝ) (lr : Nat → ℝ) (n : Nat) :
    ∃ (mem' : K → Tensor ℝ) (b : Adam K ℝ),
      World.run ⟨mem, .newAdam o⟩ (callsOpt k ds (fun j => some (g j)) lr n) = .ok ⟨mem', .adam b⟩ ∧
      lookupOrZero b.m k (shapeOf ds) = ofFn ds (fun i => (1 - o.beta1) * ∑ j ∈ Finset.range n,
        o.beta1 ^ (n - 1 - j) * (g j i / (o.batchSize : ℝ))) ∧
      lookupOrZero b.v k (shapeOf ds) = ofFn ds (fun i => (1 - o.beta2) * ∑ j ∈ Finset.range n,
        o.beta2 ^ (n - 1 - j) * (g j i / (o.batchSize : ℝ)) ^ 2) := by
  obtain ⟨b, h, -, -, h1, h2⟩ := adam_state o mem k ds w0 hk (fun j => some (g j)) lr n
  refine ⟨_, b, h, ?_, ?_⟩
  · rw [h1]
    exact ofFn_congr fun i _ => ema_sum _ _ _
  · rw [h2]
    exact ofFn_congr fun i _ => ema_sum _ _ _

/-- The published algorithm: step factor 1. -/
noncomputable abbrev adamPublished := adam (fun _ => 1)

/-- The very first call already differs: it moves by `sqrt(1 - beta2) / (1 - beta1)` times the documented
step (default options: 0.316 times), for every gradient. -/
theorem adam_first_step (o : AdamOptions ℝ) (hb1 : o.tiny ≤ o.beta1) (hb2 : o.tiny ≤ o.beta2)
    (hl1 : o.l1Strength ≤ 0) (hl2 : o.l2Strength ≤ 0) (rate : Nat → ℝ) (g : Nat → Option ℝ) (w0 : ℝ) :
    adam (adamFactor o) o.beta1 o.beta2 o.epsilon o.l1Strength o.l2Strength rate g w0 1 - w0 =
      Real.sqrt (1 - o.beta2) / (1 - o.beta1) *
        (adamPublished o.beta1 o.beta2 o.epsilon o.l1Strength o.l2Strength rate g w0 1 - w0) := by
  unfold adamPublished
  cases hg : g 0 with
  | none => simp [adam, hg]
  | some x =>
    simp only [adam, hg]
    rw [max_eq_right hl1, max_eq_right hl2]
    unfold adamFactor
    simp only [zero_add, pow_one]
    rw [max_eq_left hb1, max_eq_left hb2]
    ring

/-- In terms of the library, without penalties: the step of the first call is `sqrt(1 - beta2) / (1 - beta1)` times the
published one, in every element. -/
theorem C34_first_step (o : AdamOptions ℝ) (hb1 : o.tiny ≤ o.beta1) (hb2 : o.tiny ≤ o.beta2)
    (hl1 : o.l1Strength ≤ 0) (hl2 : o.l2Strength ≤ 0) (mem : K → Tensor ℝ) (k : K) (ds : List Nat)
    (w0 : List Nat → ℝ) (hk : mem k = ofFn ds w0) (g : List Nat → ℝ) (lr : ℝ) :
    ∃ (w' : World K ℝ) (w1 : List Nat → ℝ), World.run ⟨mem, .newAdam o⟩ [⟨[k], [ofFn ds g], lr⟩] = .ok w' ∧ w'.mem k = ofFn ds w1 ∧
      ∀ i, w1 i - w0 i = Real.sqrt (1 - o.beta2) / (1 - o.beta1) *
        (adamPublished o.beta1 o.beta2 o.epsilon o.l1Strength o.l2Strength (adamRate o fun _ => lr)
          (fun _ => some (g i / (o.batchSize : ℝ))) (w0 i) 1 - w0 i) := by
  obtain ⟨w', h, hm⟩ := C34_trajectory_partial o mem k ds w0 hk (fun _ => some g) (fun _ => lr) 1
  refine ⟨w', _, h, (congrFun hm k).trans (assign_same _ _ _), fun i => adam_first_step o hb1 hb2 hl1 hl2 _ _ _⟩

/-- C34 is false: with the default betas one call with gradient 1 does not make the documented step. -/
theorem C34_refuted :
    let o : AdamOptions ℝ := ⟨1/1000, 9/10, 999/1000, 1/100000000, 0, 0, 0, 1, 1/10^38⟩
    ∃ w' : World Nat ℝ, World.run ⟨fun _ => ofFn [1] (fun _ => 0), .newAdam o⟩
        [⟨[0], [ofFn [1] (fun _ => 1)], -1⟩] = .ok w' ∧
      w'.mem 0 ≠ ofFn [1] (fun _ => adamPublished o.beta1 o.beta2 o.epsilon 0 0 (fun _ => o.learningRate)
        (fun _ => some 1) 0 1) := by
  intro o
  obtain ⟨w', h, hm⟩ := C34_trajectory_partial (K := Nat) o (fun _ => ofFn [1] (fun _ => 0)) 0 [1] (fun _ => 0) rfl
    (fun _ => some (fun _ => 1)) (fun _ => -1) 1
  refine ⟨w', h, ?_⟩
  rw [hm, assign_same]
  intro heq
  have h1 := ofFn_inj heq (idx := [0]) (valid1_iff.2 ⟨0, rfl, by omega⟩)
  have h2 := adam_first_step o (by norm_num [o]) (by norm_num [o]) (by norm_num [o]) (by norm_num [o]) (adamRate o (fun _ => -1))
    (fun _ => some (1 / (o.batchSize : ℝ))) 0
  have hr : adamRate o (fun _ => -1) = fun _ => o.learningRate := by
    funext i
    unfold adamRate
    norm_num [o]
  have hb : (1 / (o.batchSize : ℝ)) = 1 := by norm_num [o]
  rw [hr, hb] at h2
  simp only [Option.map_some, hr, hb] at h1
  have e1 : o.l1Strength = 0 := rfl
  have e2 : o.l2Strength = 0 := rfl
  rw [e1, e2] at h1 h2
  rw [h1, sub_zero] at h2
  have hne : adamPublished o.beta1 o.beta2 o.epsilon 0 0 (fun _ => o.learningRate) (fun _ => some 1) 0 1 ≠ 0 := by
    unfold adamPublished
    rw [adam]
    dsimp only
    simp only [adam, ema, Option.map_some]
    norm_num [o]
  have h3 : Real.sqrt (1 - o.beta2) / (1 - o.beta1) = 1 := by
    have := mul_right_cancel₀ hne ((one_mul _).trans h2)
    exact this.symm
  have h4 : Real.sqrt (1 - o.beta2) = 1 / 10 := by
    rw [div_eq_one_iff_eq (by norm_num [o])] at h3
    rw [h3]
    norm_num [o]
  have h5 : (Real.sqrt (1 - o.beta2)) ^ 2 = 1 - o.beta2 := Real.sq_sqrt (by norm_num [o])
  rw [h4] at h5
  norm_num [o] at h5

/-! ### C35: independence of parameters -/

section Independence
variable {T : Type} [Zero T] [One T] [Add T] [Sub T] [Mul T] [Div T] [Neg T] [NatCast T]
  [IntCast T] [LT T] [DecidableLT T] [LE T] [DecidableLE T] [DecidableEq T] [MathFn T]

/-- The part of a call that concerns the tensor `k`. -/
def Call.restrict (k : K) (c : Call K T) : Call K T :=
  let ps := (c.weights.zip c.gradients).filter (fun p => decide (p.1 = k))
  ⟨ps.map Prod.fst, ps.map Prod.snd, c.lr⟩

omit [DecidableEq K] [Zero T] [One T] [Add T] [Sub T] [Mul T] [Div T] [Neg T] [NatCast T] [IntCast T] [LT T]
  [DecidableLT T] [LE T] [DecidableLE T] [DecidableEq T] [MathFn T] in
theorem zip_map_fst_snd (ps : List (K × Tensor T)) : (ps.map Prod.fst).zip (ps.map Prod.snd) = ps := by
  induction ps with
  | nil => rfl
  | cons p ps ih => simp [ih]

theorem run_same (k : K) (cs : List (Call K T)) : ∀ {a b a' : World K T}, Same k a b → a.run cs = .ok a' →
    ∃ b', b.run (cs.map (Call.restrict k)) = .ok b' ∧ Same k a' b' := by
  induction cs with
  | nil =>
    intro a b a' hs h
    cases h
    exact ⟨b, rfl, hs⟩
  | cons c cs ih =>
    intro a b a' hs h
    have hsplit : ∀ (w : World K T) (c : Call K T) cs, w.run (c :: cs) = (w.run [c]).bind (fun w' => w'.run cs) := by
      intro w c cs
      exact run_append w [c] cs
    rw [hsplit, run_single] at h
    rw [List.map_cons, hsplit, run_single]
    by_cases hlen : c.weights.length = c.gradients.length
    · rw [exec_optimize _ _ hlen] at h
      rw [exec_optimize _ _ (by simp [Call.restrict])]
      cases h1 : (a.begin c.lr).updateTensors c.lr (c.weights.zip c.gradients) with
      | error e => rw [h1] at h; cases h
      | ok a1 =>
        rw [h1] at h
        obtain ⟨b1, hb1, hs1⟩ := updateTensors_same _ (hs.begin c.lr) h1
        obtain ⟨b', hb', hs'⟩ := ih hs1 h
        refine ⟨b', ?_, hs'⟩
        have : (Call.restrict k c).weights.zip (Call.restrict k c).gradients =
            (c.weights.zip c.gradients).filter (fun p => decide (p.1 = k)) := zip_map_fst_snd _
        rw [this, show (Call.restrict k c).lr = c.lr from rfl, hb1]
        exact hb'
    · have : (World.optimizeM c).exec a = .error .invalidArgument := by
        unfold Mut.exec World.optimizeM
        simp only [ne_eq, hlen, not_false_eq_true, if_true]
      rw [this] at h
      cases h

/-- The trajectory of a tensor under any sequence of calls, on any optimizer in any state, is the
trajectory under the same calls with all other tensors left out.  (For Adam calls without the tensor
remain as empty calls: they count.) -/
theorem C35_independent (k : K) (cs : List (Call K T)) (w w' : World K T) (h : w.run cs = .ok w') :
    ∃ w'', w.run (cs.map (Call.restrict k)) = .ok w'' ∧ w''.mem k = w'.mem k := by
  obtain ⟨b, hb, hs⟩ := run_same k cs (Same.rfl' k w) h
  exact ⟨b, hb, hs.1.symm⟩

omit [DecidableEq K] in
theorem optimize_empty_sgd (lr : T) (w : World K T) [DecidableEq K] (h : ∀ o, w.opt ≠ .adam o) :
    (World.optimizeM ⟨[], [], lr⟩).exec w = .ok w := by
  rw [exec_optimize _ _ rfl]
  obtain ⟨mem, o⟩ := w
  cases o with
  | adam o => exact absurd rfl (h o)
  | sgd o => rfl
  | rmsprop o => rfl

theorem stepPair_kind {r : T} {w w' : World K T} {p : K × Tensor T} (hk : ∀ o, w.opt ≠ .adam o)
    (h : stepPair r w p = .ok w') : ∀ o, w'.opt ≠ .adam o := by
  obtain ⟨mem, o⟩ := w
  cases o with
  | adam o => exact absurd rfl (hk o)
  | sgd o =>
    unfold stepPair at h
    dsimp only at h
    cases hl : o.updateTensor mem p.1 p.2 (currentLR o.opts.learningRate r) with
    | error e => rw [hl] at h; cases h
    | ok x => rw [hl] at h; cases h; intro o h; cases h
  | rmsprop o =>
    unfold stepPair at h
    dsimp only at h
    cases hl : o.updateTensor mem p.1 p.2 (currentLR o.opts.learningRate r) with
    | error e => rw [hl] at h; cases h
    | ok x => rw [hl] at h; cases h; intro o h; cases h

theorem exec_kind {w w' : World K T} {c : Call K T} (hk : ∀ o, w.opt ≠ .adam o)
    (h : (World.optimizeM c).exec w = .ok w') : ∀ o, w'.opt ≠ .adam o := by
  by_cases hlen : c.weights.length = c.gradients.length
  · rw [exec_optimize _ _ hlen, updateTensors_eq] at h
    have hb : ∀ o, (w.begin c.lr).opt ≠ .adam o := by
      obtain ⟨mem, o⟩ := w
      cases o with
      | adam o => exact absurd rfl (hk o)
      | sgd o => exact hk
      | rmsprop o => exact hk
    generalize c.weights.zip c.gradients = ps at h
    generalize w.begin c.lr = b at h hb
    induction ps generalizing b with
    | nil => cases h; exact hb
    | cons p ps ih =>
      rw [List.foldlM_cons] at h
      cases h1 : stepPair c.lr b p with
      | error e => rw [h1] at h; cases h
      | ok x => rw [h1] at h; exact ih x h (stepPair_kind hb h1)
  · unfold Mut.exec World.optimizeM at h
    simp only [ne_eq, hlen, not_false_eq_true, if_true] at h
    cases h

/-- For SGD and RMSProp calls that do not include the tensor may be dropped altogether. -/
theorem C35_independent_sgd_rmsprop (k : K) (cs : List (Call K T)) : ∀ (w w' : World K T),
    (∀ o, w.opt ≠ .adam o) → w.run cs = .ok w' →
    ∃ w'', w.run ((cs.filter (fun c => decide (k ∈ c.weights))).map (Call.restrict k)) = .ok w'' ∧
      w''.mem k = w'.mem k := by
  intro w w' hk h
  obtain ⟨w'', h1, h2⟩ := C35_independent k cs w w' h
  refine ⟨w'', ?_, h2⟩
  rw [← h1]
  clear h h1 h2 w''
  induction cs generalizing w with
  | nil => rfl
  | cons c cs ih =>
    have hsplit : ∀ (w : World K T) (c : Call K T) cs, w.run (c :: cs) = (w.run [c]).bind (fun w' => w'.run cs) := by
      intro w c cs
      exact run_append w [c] cs
    by_cases hc : k ∈ c.weights
    · rw [List.filter_cons_of_pos (by simpa using hc), List.map_cons, List.map_cons, run_cons, run_cons]
      cases hx : (World.optimizeM (Call.restrict k c)).exec w with
      | error e => rfl
      | ok w1 => exact ih w1 (exec_kind hk hx)
    · rw [List.filter_cons_of_neg (by simpa using hc), List.map_cons, hsplit w]
      have hr : Call.restrict k c = ⟨[], [], c.lr⟩ := by
        unfold Call.restrict
        have : (c.weights.zip c.gradients).filter (fun p => decide (p.1 = k)) = [] := by
          rw [List.filter_eq_nil_iff]
          intro p hp hpk
          apply hc
          have := (List.of_mem_zip hp).1
          rwa [of_decide_eq_true hpk] at this
        rw [this]
        rfl
      rw [hr, run_single, optimize_empty_sgd _ _ hk]
      exact ih w hk

/-- A tensor that no call includes is never modified. -/
theorem C35_untouched (k : K) (cs : List (Call K T)) (hk : ∀ c ∈ cs, k ∉ c.weights) (w w' : World K T)
    (h : w.run cs = .ok w') : w'.mem k = w.mem k := by
  obtain ⟨w'', h1, h2⟩ := C35_independent k cs w w' h
  rw [← h2]
  clear h h2
  have hr : ∀ c ∈ cs, Call.restrict k c = ⟨[], [], c.lr⟩ := by
    intro c hc
    unfold Call.restrict
    have : (c.weights.zip c.gradients).filter (fun p => decide (p.1 = k)) = [] := by
      rw [List.filter_eq_nil_iff]
      intro p hp hpk
      apply hk c hc
      have := (List.of_mem_zip hp).1
      rwa [of_decide_eq_true hpk] at this
    rw [this]
    rfl
  rw [List.map_congr_left hr] at h1
  clear hr hk
  induction cs generalizing w with
  | nil => cases h1; rfl
  | cons c cs ih =>
    rw [List.map_cons] at h1
    have hsplit := run_append w [⟨[], [], c.lr⟩] (cs.map (fun c => (⟨[], [], c.lr⟩ : Call K T)))
    rw [List.singleton_append] at hsplit
    rw [hsplit, run_single, exec_optimize _ _ rfl] at h1
    have := ih (w.begin c.lr) h1
    rw [this]
    obtain ⟨mem, o⟩ := w
    cases o <;> rfl

/-! ### Memory safety of whole histories -/

/-- Every tensor has its declared dimensions, and so has every state tensor. -/
def Shaped (dims : K → List Nat) (w : World K T) : Prop :=
  (∀ k, ∃ f, w.mem k = ofFn (dims k) f) ∧
  let good (m : TMap K T) := ∀ k t, m k = some t → ∃ f, t = ofFn (dims k) f
  match w.opt with
  | .sgd o => good o.momentumBuffers
  | .rmsprop o => good o.squaredGrads ∧ good o.meanGrads ∧ good o.velocityBuffers
  | .adam o => good o.m ∧ good o.v

omit [One T] [Add T] [Sub T] [Mul T] [Div T] [Neg T] [NatCast T] [IntCast T] [LT T]
  [DecidableLT T] [LE T] [DecidableLE T] [DecidableEq T] [MathFn T] [DecidableEq K] in
theorem lookup_shaped {dims : K → List Nat} {m : TMap K T} (h : ∀ k t, m k = some t → ∃ f, t = ofFn (dims k) f)
    (k : K) : ∃ f, lookupOrZero m k (shapeOf (dims k)) = ofFn (dims k) f := by
  unfold lookupOrZero
  cases hm : m k with
  | none => exact ⟨_, full_shapeOf _ _⟩
  | some t => exact h k t hm

omit [Zero T] [One T] [Add T] [Sub T] [Mul T] [Div T] [Neg T] [NatCast T] [IntCast T] [LT T]
  [DecidableLT T] [LE T] [DecidableLE T] [DecidableEq T] [MathFn T] in
theorem assign_shaped {dims : K → List Nat} {m : TMap K T} (h : ∀ k t, m k = some t → ∃ f, t = ofFn (dims k) f)
    (k : K) (f : List Nat → T) : ∀ j t, assign m k (some (ofFn (dims k) f)) j = some t → ∃ f, t = ofFn (dims j) f := by
  intro j t ht
  unfold assign at ht
  split at ht
  · next e => subst e; exact ⟨f, (Option.some.inj ht).symm⟩
  · exact h j t ht

omit [Zero T] [One T] [Add T] [Sub T] [Mul T] [Div T] [Neg T] [NatCast T] [IntCast T] [LT T]
  [DecidableLT T] [LE T] [DecidableLE T] [DecidableEq T] [MathFn T] in
theorem assign_shaped' {dims : K → List Nat} {m : K → Tensor T} (h : ∀ k, ∃ f, m k = ofFn (dims k) f)
    (k : K) (f : List Nat → T) : ∀ j, ∃ f', assign m k (ofFn (dims k) f) j = ofFn (dims j) f' := by
  intro j
  unfold assign
  split
  · next e => subst e; exact ⟨f, rfl⟩
  · exact h j

theorem stepPair_shaped {dims : K → List Nat} {w : World K T} (hs : Shaped dims w) (r : T) (k : K)
    (g : List Nat → T) : ∃ w', stepPair r w (k, ofFn (dims k) g) = .ok w' ∧ Shaped dims w' := by
  obtain ⟨mem, o⟩ := w
  obtain ⟨hm, ho⟩ := hs
  dsimp only at hm ho
  obtain ⟨f, hf⟩ := hm k
  cases o with
  | sgd o =>
    obtain ⟨b, hb⟩ := lookup_shaped ho k
    unfold stepPair SGD.updateTensor
    simp only [hf, ofFn_shape, hb, sgd_loop_ofFn, Except.bind_ok', Except.pure_eq']
    exact ⟨_, rfl, assign_shaped' hm k _, assign_shaped ho k _⟩
  | rmsprop o =>
    obtain ⟨h1, h2, h3⟩ := ho
    obtain ⟨b1, hb1⟩ := lookup_shaped h1 k
    obtain ⟨b2, hb2⟩ := lookup_shaped h2 k
    obtain ⟨b3, hb3⟩ := lookup_shaped h3 k
    unfold stepPair RMSProp.updateTensor
    simp only [hf, ofFn_shape, hb1, hb2, hb3, rms_loop_ofFn, Except.bind_ok', Except.pure_eq']
    refine ⟨_, rfl, assign_shaped' hm k _, assign_shaped h1 k _, ?_, ?_⟩
    · dsimp only; split
      · exact assign_shaped h2 k _
      · exact h2
    · dsimp only; split
      · exact assign_shaped h3 k _
      · exact h3
  | adam o =>
    obtain ⟨h1, h2⟩ := ho
    obtain ⟨b1, hb1⟩ := lookup_shaped h1 k
    obtain ⟨b2, hb2⟩ := lookup_shaped h2 k
    unfold stepPair Adam.updateTensor
    simp only [hf, ofFn_shape, hb1, hb2, adam_loop_ofFn, Except.bind_ok', Except.pure_eq']
    exact ⟨_, rfl, assign_shaped' hm k _, assign_shaped h1 k _, assign_shaped h2 k _⟩

/-- Any sequence of calls whose gradients have the dimensions of their weights completes without
undefined behaviour or exception, from any optimizer state whose buffers have the right shapes (in
particular a new one), and keeps all shapes. -/
theorem C35_total {dims : K → List Nat} (cs : List (Call K T)) (w : World K T) (hs : Shaped dims w)
    (hc : ∀ c ∈ cs, List.Forall₂ (fun k t => ∃ f, t = ofFn (dims k) f) c.weights c.gradients) :
    ∃ w', w.run cs = .ok w' ∧ Shaped dims w' := by
  induction cs generalizing w with
  | nil => exact ⟨w, rfl, hs⟩
  | cons c cs ih =>
    have hsplit := run_append w [c] cs
    rw [List.singleton_append] at hsplit
    rw [hsplit, run_single]
    have hc1 := hc c (by simp)
    rw [exec_optimize _ _ hc1.length_eq, updateTensors_eq]
    have hb : Shaped dims (w.begin c.lr) := by
      obtain ⟨mem, o⟩ := w
      cases o <;> exact hs
    have key : ∀ (ws : List K) (gs : List (Tensor T)) (b : World K T),
        List.Forall₂ (fun k t => ∃ f, t = ofFn (dims k) f) ws gs → Shaped dims b →
        ∃ b', (ws.zip gs).foldlM (stepPair c.lr) b = .ok b' ∧ Shaped dims b' := by
      intro ws gs b hf
      induction hf generalizing b with
      | nil => exact fun hb => ⟨b, rfl, hb⟩
      | cons h _ ih2 =>
        intro hb
        obtain ⟨f, rfl⟩ := h
        obtain ⟨b1, h1, hb1⟩ := stepPair_shaped hb c.lr _ f
        rw [List.zip_cons_cons, List.foldlM_cons, h1]
        exact ih2 b1 hb1
    obtain ⟨w1, h1, hs1⟩ := key _ _ _ hc1 hb
    rw [h1]
    exact ih w1 hs1 (fun c' hc' => hc c' (by simp [hc']))

omit [One T] [Add T] [Sub T] [Mul T] [Div T] [Neg T] [NatCast T] [IntCast T] [LT T]
  [DecidableLT T] [LE T] [DecidableLE T] [DecidableEq T] [MathFn T] [Zero T] [DecidableEq K] in
theorem newSGD_shaped {dims : K → List Nat} (f : K → List Nat → T) (o : SGDOptions T) :
    Shaped dims ⟨fun k => ofFn (dims k) (f k), .newSGD o⟩ :=
  ⟨fun _ => ⟨_, rfl⟩, by intro _ k t h; cases h⟩

end Independence

example (o : SGDOptions ℝ) : ∃ w' : World Nat ℝ,
    World.run ⟨fun k => ofFn [k, 2] (fun _ => 1), .newSGD o⟩
      [⟨[3, 4], [ofFn [3, 2] (fun _ => 1), ofFn [4, 2] (fun _ => 2)], -1⟩,
       ⟨[4], [ofFn [4, 2] (fun _ => 5)], 1/2⟩] = .ok w' ∧ w'.mem 5 = ofFn [5, 2] (fun _ => 1) := by
  have h5 := C35_untouched (K := Nat) (T := ℝ) 5 [⟨[3, 4], [ofFn [3, 2] (fun _ => 1), ofFn [4, 2] (fun _ => 2)], -1⟩,
       ⟨[4], [ofFn [4, 2] (fun _ => 5)], 1/2⟩] (by simp) ⟨fun k => ofFn [k, 2] (fun _ => 1), .newSGD o⟩
  obtain ⟨w', h, _⟩ := C35_total (dims := fun k : Nat => [k, 2])
    [⟨[3, 4], [ofFn [3, 2] (fun _ => (1 : ℝ)), ofFn [4, 2] (fun _ => 2)], -1⟩,
       ⟨[4], [ofFn [4, 2] (fun _ => 5)], 1/2⟩] ⟨fun k => ofFn [k, 2] (fun _ => 1), .newSGD o⟩
    (newSGD_shaped (fun _ _ => 1) o) (by
      intro c hc
      simp only [List.mem_cons, List.not_mem_nil, or_false] at hc
      rcases hc with rfl | rfl
      · exact .cons ⟨_, rfl⟩ (.cons ⟨_, rfl⟩ .nil)
      · exact .cons ⟨_, rfl⟩ .nil)
  exact ⟨w', h, h5 w' h⟩

/-! ### C65: state of a destroyed parameter -/

/-- A tensor allocated at the address of a destroyed one inherits its momentum: a fresh tensor that
receives a zero gradient moves, although a new optimizer would leave it unchanged. -/
theorem C65_refuted :
    let o : SGDOptions ℝ := ⟨1, 1/2, 0, 0, false⟩
    ∃ w1 w2 w3 : World Nat ℝ,
      World.run ⟨fun _ => ofFn [1] (fun _ => 0), .newSGD o⟩ [⟨[0], [ofFn [1] (fun _ => 1)], -1⟩] = .ok w1 ∧
      World.run ⟨assign w1.mem 0 (ofFn [1] (fun _ => 7)), w1.opt⟩ [⟨[0], [ofFn [1] (fun _ => 0)], -1⟩] = .ok w2 ∧
      w2.mem 0 = ofFn [1] (fun _ => 7 - 1/2) ∧
      World.run ⟨fun _ => ofFn [1] (fun _ => 7), .newSGD o⟩ [⟨[0], [ofFn [1] (fun _ => 0)], -1⟩] = .ok w3 ∧
      w3.mem 0 = ofFn [1] (fun _ => 7) := by
  intro o
  have hstep : ∀ (mem : Nat → Tensor ℝ) (b : TMap Nat ℝ) (w v g : List Nat → ℝ), mem 0 = ofFn [1] w →
      lookupOrZero b 0 (shapeOf [1]) = ofFn [1] v →
      World.run ⟨mem, .sgd ⟨o, b⟩⟩ [⟨[0], [ofFn [1] g], -1⟩] =
        .ok ⟨assign mem 0 (ofFn [1] (fun i => (sgdCell o 1 (g i) (w i, v i)).1)),
          .sgd ⟨o, assign b 0 (some (ofFn [1] (fun i => (sgdCell o 1 (g i) (w i, v i)).2)))⟩⟩ := by
    intro mem b w v g hm hb
    rw [run_single, exec_optimize _ _ rfl, updateTensors_eq]
    have hl : currentLR o.learningRate (-1) = 1 := by norm_num [currentLR, o]
    simp only [List.zip_cons_cons, List.zip_nil_right, List.foldlM_cons, List.foldlM_nil, World.begin, stepPair,
      SGD.updateTensor, hm, ofFn_shape, hb, hl, sgd_loop_ofFn, Except.bind_ok', Except.pure_eq']
  refine ⟨_, _, _, hstep _ _ (fun _ => 0) (fun _ => 0) _ rfl (full_shapeOf [1] 0),
    hstep _ _ (fun _ => 7) (fun _ => (sgdCell o 1 1 (0, 0)).2) (fun _ => 0) (assign_same _ _ _)
      (by simp [lookupOrZero]), ?_,
    hstep _ _ (fun _ => 7) (fun _ => 0) _ rfl (full_shapeOf [1] 0), ?_⟩
  · dsimp only
    rw [assign_same]
    apply ofFn_congr
    intro i _
    norm_num [sgdCell, o]
  · dsimp only
    rw [assign_same]
    apply ofFn_congr
    intro i _
    norm_num [sgdCell, o]

/-- If the optimizer has no entry for the address of `k`, the trajectory of `k` is that under a new
optimizer with the same options.  (Missing for C65: reused addresses.) -/
theorem C65_fresh_partial {T : Type} [Zero T] [One T] [Add T] [Sub T] [Mul T] [Div T] [Neg T] [NatCast T]
    [IntCast T] [LT T] [DecidableLT T] [LE T] [DecidableLE T] [DecidableEq T] [MathFn T]
    (k : K) (cs : List (Call K T)) (mem : K → Tensor T) (o : SGD K T) (p : RMSProp K T) :
    (o.momentumBuffers k = none → ∀ w', World.run ⟨mem, .sgd o⟩ cs = .ok w' →
      ∃ w'', World.run ⟨mem, .newSGD o.opts⟩ (cs.map (Call.restrict k)) = .ok w'' ∧ w''.mem k = w'.mem k) ∧
    (p.squaredGrads k = none → p.meanGrads k = none → p.velocityBuffers k = none →
      ∀ w', World.run ⟨mem, .rmsprop p⟩ cs = .ok w' →
      ∃ w'', World.run ⟨mem, .newRMSProp p.opts⟩ (cs.map (Call.restrict k)) = .ok w'' ∧ w''.mem k = w'.mem k) := by
  constructor
  · intro h w' hw
    obtain ⟨b, hb, hs⟩ := run_same k cs (a := ⟨mem, .sgd o⟩) (b := ⟨mem, .newSGD o.opts⟩) ⟨rfl, rfl, h⟩ hw
    exact ⟨b, hb, hs.1.symm⟩
  · intro h1 h2 h3 w' hw
    obtain ⟨b, hb, hs⟩ := run_same k cs (a := ⟨mem, .rmsprop p⟩) (b := ⟨mem, .newRMSProp p.opts⟩) ⟨rfl, rfl, h1, h2, h3⟩ hw
    exact ⟨b, hb, hs.1.symm⟩

/-! ### C36: learning rate and count check -/

/-- The world whose optimizer was configured with learning rate `eta` (and, for Adam, `decay`). -/
def World.withRate {T : Type} (w : World K T) (eta decay : T) : World K T :=
  match w.opt with
  | .sgd o => { w with opt := .sgd { o with opts := { o.opts with learningRate := eta } } }
  | .rmsprop o => { w with opt := .rmsprop { o with opts := { o.opts with learningRate := eta } } }
  | .adam o => { w with opt := .adam { o with opts := { o.opts with learningRate := eta, decay := decay } } }

/-- Configured learning rate of an optimizer. -/
def World.rate {T : Type} (w : World K T) : T :=
  match w.opt with
  | .sgd o => o.opts.learningRate
  | .rmsprop o => o.opts.learningRate
  | .adam o => o.opts.learningRate

/-- Configured decay of an Adam optimizer (irrelevant for the others). -/
def World.decay {T : Type} [Zero T] (w : World K T) : T :=
  match w.opt with
  | .adam o => o.opts.decay
  | _ => 0

theorem stepPair_withRate (w : World K ℝ) (r s : ℝ) (hr : 0 < r) (hs : s ≤ 0) (p : K × Tensor ℝ) :
    (∀ o, w.opt ≠ .adam o) →
    stepPair s (w.withRate r 0) p = (stepPair r w p).map (fun w' => w'.withRate r 0) := by
  intro hk
  obtain ⟨mem, o⟩ := w
  have h1 : ∀ eta : ℝ, currentLR eta r = r := fun eta => if_pos hr
  have h2 : ∀ eta : ℝ, currentLR eta s = eta := fun eta => if_neg (not_lt.2 hs)
  cases o with
  | adam o => exact absurd rfl (hk o)
  | sgd o =>
    unfold stepPair SGD.updateTensor
    simp only [World.withRate, h1, h2]
    have : SGD.loop { o.opts with learningRate := r } (mem p.1) (lookupOrZero o.momentumBuffers p.1 (mem p.1).shape)
      p.2 r = SGD.loop o.opts (mem p.1) (lookupOrZero o.momentumBuffers p.1 (mem p.1).shape) p.2 r := rfl
    rw [this]
    cases SGD.loop o.opts (mem p.1) (lookupOrZero o.momentumBuffers p.1 (mem p.1).shape) p.2 r <;> rfl
  | rmsprop o =>
    unfold stepPair RMSProp.updateTensor
    simp only [World.withRate, h1, h2]
    generalize hS : (⟨mem p.1, lookupOrZero o.squaredGrads p.1 (mem p.1).shape,
        lookupOrZero o.meanGrads p.1 (mem p.1).shape, lookupOrZero o.velocityBuffers p.1 (mem p.1).shape⟩ : RMSState ℝ) = S
    have : RMSProp.loop { o.opts with learningRate := r } S p.2 r = RMSProp.loop o.opts S p.2 r := rfl
    rw [this]
    cases RMSProp.loop o.opts S p.2 r <;> rfl

/-- Adam: only the current rate matters for the update. -/
theorem stepPair_withRate_adam (w : World K ℝ) (r s eta d : ℝ) (p : K × Tensor ℝ) (o : Adam K ℝ)
    (ho : w.opt = .adam o) :
    stepPair s (w.withRate eta d) p = (stepPair r w p).map (fun w' => w'.withRate eta d) := by
  obtain ⟨mem, o'⟩ := w
  dsimp only at ho
  subst ho
  unfold stepPair Adam.updateTensor
  simp only [World.withRate]
  generalize hS : (mem p.1, lookupOrZero o.m p.1 (mem p.1).shape, lookupOrZero o.v p.1 (mem p.1).shape) = S
  have : Adam.loop { o.opts with learningRate := eta, decay := d } o.learningRate o.iterations S p.2 =
    Adam.loop o.opts o.learningRate o.iterations S p.2 := rfl
  rw [this]
  cases Adam.loop o.opts o.learningRate o.iterations S p.2 <;> rfl

omit [DecidableEq K] in
theorem withRate_withRate {T : Type} [Zero T] (w : World K T) (a b c d : T) :
    (w.withRate a b).withRate c d = w.withRate c d := by
  obtain ⟨mem, o⟩ := w
  cases o <;> rfl

omit [DecidableEq K] in
theorem withRate_self {T : Type} [Zero T] (w : World K T) : w.withRate w.rate w.decay = w := by
  obtain ⟨mem, o⟩ := w
  cases o <;> rfl

theorem foldlM_map_comm {σ α : Type} (f g : σ → α → Res σ) (p : σ → σ) (l : List α)
    (h : ∀ s, ∀ a ∈ l, g (p s) a = (f s a).map p) (s : σ) : l.foldlM g (p s) = (l.foldlM f s).map p := by
  induction l generalizing s with
  | nil => rfl
  | cons a l ih =>
    rw [List.foldlM_cons, List.foldlM_cons, h s a (by simp)]
    cases f s a with
    | error e => rfl
    | ok s' => exact ih (fun s a ha => h s a (by simp [ha])) s'

theorem C36_mismatch {T : Type} [Zero T] [One T] [Add T] [Sub T] [Mul T] [Div T] [Neg T] [NatCast T]
    [IntCast T] [LT T] [DecidableLT T] [LE T] [DecidableLE T] [DecidableEq T] [MathFn T]
    (w : World K T) (c : Call K T) (h : c.weights.length ≠ c.gradients.length) :
    World.optimizeM c w = (.error .invalidArgument, w) := by
  unfold World.optimizeM
  rw [if_pos h]


/-- All non-positive overrides mean the same: the configured rate. -/
theorem C36_nonpositive (w : World K ℝ) (ws : List K) (gs : List (Tensor ℝ)) {s s' : ℝ} (hs : s ≤ 0)
    (hs' : s' ≤ 0) : World.optimizeM ⟨ws, gs, s⟩ w = World.optimizeM ⟨ws, gs, s'⟩ w := by
  have hb : w.begin s = w.begin s' := by
    obtain ⟨mem, o⟩ := w
    cases o <;> simp [World.begin, Adam.updateLearningRate, hs, hs']
  have hst : (stepPair s : World K ℝ → _) = stepPair s' := by
    funext w p
    have : ∀ eta : ℝ, currentLR eta s = currentLR eta s' := fun eta => by
      unfold currentLR
      rw [if_neg (not_lt.2 hs), if_neg (not_lt.2 hs')]
    unfold stepPair
    simp only [this]
  unfold World.optimizeM
  simp only [updateTensors_eq, hb, hst]

/-- A positive override `r` acts for that call exactly as if `r` (without decay) had been configured;
afterwards the optimizer is configured as before. -/
theorem C36_override (w : World K ℝ) (ws : List K) (gs : List (Tensor ℝ)) {r s : ℝ} (hr : 0 < r) (hs : s ≤ 0) :
    ((World.optimizeM ⟨ws, gs, s⟩).exec (w.withRate r 0)) =
      ((World.optimizeM ⟨ws, gs, r⟩).exec w).map (fun w' => w'.withRate r 0) := by
  by_cases hlen : ws.length = gs.length
  · rw [exec_optimize _ _ hlen, exec_optimize _ _ hlen, updateTensors_eq, updateTensors_eq]
    dsimp only
    obtain ⟨mem, o⟩ := w
    have hnon : ∀ w : World K ℝ, (∀ o, w.opt ≠ .adam o) → ∀ ps : List (K × Tensor ℝ),
        ps.foldlM (stepPair s) (w.withRate r 0) = (ps.foldlM (stepPair r) w).map (fun w' => w'.withRate r 0) := by
      intro w hw ps
      induction ps generalizing w with
      | nil => rfl
      | cons p ps ih =>
        rw [List.foldlM_cons, List.foldlM_cons, stepPair_withRate w r s hr hs p hw]
        cases h1 : stepPair r w p with
        | error e => rfl
        | ok w1 => exact ih w1 (stepPair_kind hw h1)
    cases o with
    | sgd o => exact hnon ⟨mem, .sgd o⟩ (fun _ h => by cases h) _
    | rmsprop o => exact hnon ⟨mem, .rmsprop o⟩ (fun _ h => by cases h) _
    | adam o =>
      have hb : (World.withRate ⟨mem, .adam o⟩ r 0).begin s = ((⟨mem, .adam o⟩ : World K ℝ).begin r).withRate r 0 := by
        simp [World.begin, World.withRate, Adam.updateLearningRate, hs, not_le.2 hr]
      rw [hb]
      have hadam : ∀ (ps : List (K × Tensor ℝ)) (w : World K ℝ) (o : Adam K ℝ), w.opt = .adam o →
          ps.foldlM (stepPair s) (w.withRate r 0) = (ps.foldlM (stepPair r) w).map (fun w' => w'.withRate r 0) := by
        intro ps
        induction ps with
        | nil => intro w o _; rfl
        | cons p ps ih =>
          intro w o ho
          rw [List.foldlM_cons, List.foldlM_cons, stepPair_withRate_adam w r s r 0 p o ho]
          cases h1 : stepPair r w p with
          | error e => rfl
          | ok w1 =>
            have : ∃ o1, w1.opt = .adam o1 := by
              unfold stepPair at h1
              rw [ho] at h1
              dsimp only at h1
              cases h2 : o.updateTensor w.mem p.1 p.2 with
              | error e => rw [h2] at h1; cases h1
              | ok x => rw [h2] at h1; cases h1; exact ⟨_, rfl⟩
            obtain ⟨o1, h3⟩ := this
            exact ih w1 o1 h3
      exact hadam _ _ _ rfl
  · have : ∀ (q : ℝ) (w : World K ℝ), (World.optimizeM ⟨ws, gs, q⟩).exec w = .error .invalidArgument := by
      intro q w
      unfold Mut.exec
      rw [C36_mismatch _ _ hlen]
    rw [this, this]
    rfl

/-- No call ever changes the configuration (learning rate, decay). -/
theorem C36_configuration (w w' : World K ℝ) (c : Call K ℝ) (h : (World.optimizeM c).exec w = .ok w') :
    w'.rate = w.rate ∧ w'.decay = w.decay := by
  by_cases hlen : c.weights.length = c.gradients.length
  · rw [exec_optimize _ _ hlen, updateTensors_eq] at h
    have hb : (w.begin c.lr).rate = w.rate ∧ (w.begin c.lr).decay = w.decay := by
      obtain ⟨mem, o⟩ := w
      cases o <;> exact ⟨rfl, rfl⟩
    rw [← hb.1, ← hb.2]
    generalize c.weights.zip c.gradients = ps at h
    generalize w.begin c.lr = b at h
    clear hb
    induction ps generalizing b with
    | nil => cases h; exact ⟨rfl, rfl⟩
    | cons p ps ih =>
      rw [List.foldlM_cons] at h
      cases h1 : stepPair c.lr b p with
      | error e => rw [h1] at h; cases h
      | ok x =>
        rw [h1] at h
        have h2 := ih x h
        have h3 : x.rate = b.rate ∧ x.decay = b.decay := by
          obtain ⟨mem, o⟩ := b
          unfold stepPair at h1
          cases o with
          | sgd o =>
            unfold SGD.updateTensor at h1
            dsimp only at h1
            generalize SGD.loop o.opts (mem p.1) (lookupOrZero o.momentumBuffers p.1 (mem p.1).shape) p.2
              (currentLR o.opts.learningRate c.lr) = L at h1
            cases L <;> cases h1 <;> exact ⟨rfl, rfl⟩
          | rmsprop o =>
            unfold RMSProp.updateTensor at h1
            dsimp only at h1
            generalize RMSProp.loop o.opts ⟨mem p.1, lookupOrZero o.squaredGrads p.1 (mem p.1).shape,
              lookupOrZero o.meanGrads p.1 (mem p.1).shape, lookupOrZero o.velocityBuffers p.1 (mem p.1).shape⟩ p.2
              (currentLR o.opts.learningRate c.lr) = L at h1
            cases L <;> cases h1 <;> exact ⟨rfl, rfl⟩
          | adam o =>
            unfold Adam.updateTensor at h1
            dsimp only at h1
            generalize Adam.loop o.opts o.learningRate o.iterations (mem p.1, lookupOrZero o.m p.1 (mem p.1).shape,
              lookupOrZero o.v p.1 (mem p.1).shape) p.2 = L at h1
            cases L <;> cases h1 <;> exact ⟨rfl, rfl⟩
        exact ⟨h2.1.trans h3.1, h2.2.trans h3.2⟩
  · unfold Mut.exec at h
    rw [C36_mismatch _ _ hlen] at h
    cases h

/-- Adam's effective rate: the override if positive, otherwise the configured rate divided by
`1 + decay * calls` when `decay > 0`. -/
theorem C36_adam_rate (o : Adam K ℝ) (override : ℝ) :
    (o.updateLearningRate override).iterations = o.iterations + 1 ∧
    (o.updateLearningRate override).learningRate =
      if 0 < override then override
      else if 0 < o.opts.decay then o.opts.learningRate / (1 + o.opts.decay * ((o.iterations : ℝ) + 1))
      else o.opts.learningRate := by
  refine ⟨rfl, ?_⟩
  unfold Adam.updateLearningRate
  dsimp only
  by_cases h : 0 < override
  · rw [if_neg (not_le.2 h), if_pos h]
  · rw [if_pos (not_lt.1 h), if_neg h]
    split
    · push_cast; ring
    · ring

example : World.optimizeM (K := Nat) (T := ℝ) ⟨[0, 1], [ofFn [1] (fun _ => 1)], 1⟩
    ⟨fun _ => ofFn [1] (fun _ => 2), .newAdam ⟨1, 0, 0, 0, 0, 0, 0, 1, 0⟩⟩ =
    (.error .invalidArgument, ⟨fun _ => ofFn [1] (fun _ => 2), .newAdam ⟨1, 0, 0, 0, 0, 0, 0, 1, 0⟩⟩) :=
  C36_mismatch _ _ (by simp)

end SmartDNN
