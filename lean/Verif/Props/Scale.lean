import Verif.Props.Optimizers

/-!
# C106: how the optimizers respond to the scale and the sign of the gradients
-/

namespace SmartDNN
open Spec

section
variable {F : Type} [Field F] [LinearOrder F] [IsStrictOrderedRing F] [MathFn F]

omit [IsStrictOrderedRing F] [MathFn F] in
theorem sgd_scale {c : F} (hc : c ≠ 0) (mu d wd : F) (nesterov : Bool) (rate g : Nat → F) (w0 : F) (n : Nat) :
    sgd mu d (c * wd) nesterov (fun j => rate j / c) (fun j => c * g j) w0 n =
      ((sgd mu d wd nesterov rate g w0 n).1, c * (sgd mu d wd nesterov rate g w0 n).2) := by
  induction n with
  | zero => simp [sgd]
  | succ n ih =>
    unfold sgd
    rw [ih]
    dsimp only
    refine Prod.ext ?_ (by dsimp only; ring)
    dsimp only
    have e : ∀ s : F, rate n / c * (c * s) = rate n * s := fun s => by field_simp
    split
    · rw [← e]; ring
    · split
      · rw [← e]; ring
      · rw [← e]; ring

omit [IsStrictOrderedRing F] [MathFn F] in
theorem sgd_mirror (mu d : F) (nesterov : Bool) (rate g : Nat → F) (w0 : F) (n : Nat) :
    sgd mu d 0 nesterov rate (fun j => -g j) w0 n =
      (2 * w0 - (sgd mu d 0 nesterov rate g w0 n).1, -(sgd mu d 0 nesterov rate g w0 n).2) := by
  induction n with
  | zero => simp [sgd]; ring
  | succ n ih =>
    unfold sgd
    rw [ih]
    dsimp only
    refine Prod.ext ?_ (by dsimp only; ring)
    dsimp only
    split
    · ring
    · split <;> ring

end

theorem rmsprop_scale {c : ℝ} (hc : 0 < c) (alpha eps mu wd : ℝ) (centered : Bool) (rate g : Nat → ℝ) (w0 : ℝ) (n : Nat) :
    rmsprop alpha (c ^ 2 * eps) mu (c * wd) centered rate (fun j => c * g j) w0 n =
      ⟨(rmsprop alpha eps mu wd centered rate g w0 n).w, c ^ 2 * (rmsprop alpha eps mu wd centered rate g w0 n).sq,
        c * (rmsprop alpha eps mu wd centered rate g w0 n).mean, (rmsprop alpha eps mu wd centered rate g w0 n).vel⟩ := by
  induction n with
  | zero => simp [rmsprop]
  | succ n ih =>
    unfold rmsprop
    rw [ih]
    dsimp only
    generalize rmsprop alpha eps mu wd centered rate g w0 n = s
    have h1 : (c * g n + c * wd * s.w) = c * (g n + wd * s.w) := by ring
    rw [h1]
    generalize g n + wd * s.w = g'
    have h2 : alpha * (c ^ 2 * s.sq) + (1 - alpha) * (c * g') ^ 2 = c ^ 2 * (alpha * s.sq + (1 - alpha) * g' ^ 2) := by ring
    have h3 : alpha * (c * s.mean) + (1 - alpha) * (c * g') = c * (alpha * s.mean + (1 - alpha) * g') := by ring
    rw [h2, h3]
    generalize alpha * s.sq + (1 - alpha) * g' ^ 2 = q
    generalize alpha * s.mean + (1 - alpha) * g' = m
    have h4 : c ^ 2 * q - (if centered then (c * m) ^ 2 else 0) + c ^ 2 * eps = c ^ 2 * (q - (if centered then m ^ 2 else 0) + eps) := by
      split <;> ring
    rw [h4, Real.sqrt_mul (by positivity), Real.sqrt_sq hc.le, mul_div_mul_left _ _ hc.ne']

theorem rmsprop_mirror (alpha eps mu : ℝ) (centered : Bool) (rate g : Nat → ℝ) (w0 : ℝ) (n : Nat) :
    rmsprop alpha eps mu 0 centered rate (fun j => -g j) w0 n =
      ⟨2 * w0 - (rmsprop alpha eps mu 0 centered rate g w0 n).w, (rmsprop alpha eps mu 0 centered rate g w0 n).sq,
        -(rmsprop alpha eps mu 0 centered rate g w0 n).mean, -(rmsprop alpha eps mu 0 centered rate g w0 n).vel⟩ := by
  induction n with
  | zero => simp [rmsprop]; ring
  | succ n ih =>
    unfold rmsprop
    rw [ih]
    dsimp only
    generalize rmsprop alpha eps mu 0 centered rate g w0 n = s
    have h1 : -g n + 0 * (2 * w0 - s.w) = -(g n + 0 * s.w) := by ring
    rw [h1]
    generalize g n + 0 * s.w = g'
    have h3 : alpha * -s.mean + (1 - alpha) * -g' = -(alpha * s.mean + (1 - alpha) * g') := by ring
    rw [h3, neg_sq, neg_sq, neg_div]
    generalize alpha * s.mean + (1 - alpha) * g' = m
    generalize g' / _ = u
    congr 1
    · split <;> ring
    · ring

theorem ema_scale (c beta : ℝ) (g : Nat → Option ℝ) (n : Nat) : ema beta (fun j => (g j).map (c * ·)) n = c * ema beta g n := by
  induction n with
  | zero => simp [ema]
  | succ n ih =>
    unfold ema
    rw [ih]
    cases g n with
    | none => rfl
    | some x => simp only [Option.map_some]; ring

theorem ema_sq_scale (c beta : ℝ) (g : Nat → Option ℝ) (n : Nat) :
    ema beta (fun j => ((g j).map (c * ·)).map (· ^ 2)) n = c ^ 2 * ema beta (fun j => (g j).map (· ^ 2)) n := by
  rw [← ema_scale]
  congr 1
  funext j
  cases g j with
  | none => rfl
  | some x => simp only [Option.map_some]; rw [mul_pow]

theorem adam_scale {a : ℝ} (ha : 0 < a) (c : Nat → ℝ) (beta1 beta2 eps l1 l2 : ℝ) (rate : Nat → ℝ) (g : Nat → Option ℝ) (w0 : ℝ) (n : Nat) :
    adam c beta1 beta2 (a * eps) l1 l2 rate (fun j => (g j).map (a * ·)) w0 n = adam c beta1 beta2 eps l1 l2 rate g w0 n := by
  induction n with
  | zero => rfl
  | succ n ih =>
    unfold adam
    rw [ih, ema_scale, ema_sq_scale]
    generalize adam c beta1 beta2 eps l1 l2 rate g w0 n = w
    cases g n with
    | none => rfl
    | some x =>
      simp only [Option.map_some]
      generalize ema beta1 g (n + 1) = m
      generalize ema beta2 (fun j => (g j).map (· ^ 2)) (n + 1) = v
      have h1 : a ^ 2 * v / (1 - beta2 ^ (n + 1)) = a ^ 2 * (v / (1 - beta2 ^ (n + 1))) := by ring
      rw [h1, Real.sqrt_mul (by positivity), Real.sqrt_sq ha.le, ← mul_add]
      have h2 : rate n * c (n + 1) * (a * m / (1 - beta1 ^ (n + 1))) = a * (rate n * c (n + 1) * (m / (1 - beta1 ^ (n + 1)))) := by ring
      rw [h2, mul_div_mul_left _ _ ha.ne']

theorem adam_mirror (c : Nat → ℝ) (beta1 beta2 eps l1 l2 : ℝ) (h1 : l1 ≤ 0) (h2 : l2 ≤ 0) (rate : Nat → ℝ) (g : Nat → Option ℝ) (w0 : ℝ) (n : Nat) :
    adam c beta1 beta2 eps l1 l2 rate (fun j => (g j).map (-1 * ·)) w0 n = 2 * w0 - adam c beta1 beta2 eps l1 l2 rate g w0 n := by
  induction n with
  | zero => show w0 = 2 * w0 - w0; ring
  | succ n ih =>
    unfold adam
    rw [ih, ema_scale, ema_sq_scale]
    generalize adam c beta1 beta2 eps l1 l2 rate g w0 n = w
    cases g n with
    | none => rfl
    | some x =>
      simp only [Option.map_some, max_eq_right h1, max_eq_right h2]
      norm_num
      ring

/-! ### In terms of the library -/

variable {K : Type} [DecidableEq K]

/-- The gradients of a history, all multiplied by `c`. -/
def Spec.scaled {T : Type} [Mul T] (c : T) (g : Nat → List Nat → T) : Nat → List Nat → T := fun j i => c * g j i

/-- SGD (with or without momentum, dampening and Nesterov): multiplying all gradients and the weight decay by `c > 0` and dividing the
learning rate by `c` changes nothing, over every history of calls. -/
theorem C106_sgd {F : Type} [Field F] [LinearOrder F] [IsStrictOrderedRing F] [MathFn F] {c : F} (hc : 0 < c) (o : SGDOptions F)
    (mem : K → Tensor F) (k : K) (ds : List Nat) (w0 : List Nat → F) (hk : mem k = ofFn ds w0) (g : Nat → List Nat → F) (lr : Nat → F) (n : Nat) :
    ∃ a b : World K F, World.run ⟨mem, .newSGD o⟩ (callsOn k ds g lr n) = .ok a ∧
      World.run ⟨mem, .newSGD { o with learningRate := o.learningRate / c, weightDecay := c * o.weightDecay }⟩
        (callsOn k ds (scaled c g) (fun j => lr j / c) n) = .ok b ∧ b.mem = a.mem := by
  obtain ⟨a, h1, h2⟩ := C32_recurrence o mem k ds w0 hk g lr n
  obtain ⟨b, h3, h4⟩ := C32_recurrence { o with learningRate := o.learningRate / c, weightDecay := c * o.weightDecay } mem k ds w0 hk (scaled c g) (fun j => lr j / c) n
  refine ⟨a, b, h1, h3, ?_⟩
  rw [h2, h4]
  congr 2
  funext i
  have e : (fun j => if 0 < lr j / c then lr j / c else o.learningRate / c) = fun j => (if 0 < lr j then lr j else o.learningRate) / c := by
    funext j
    rw [ite_div]
    exact if_congr (div_pos_iff_of_pos_right hc) rfl rfl
  have h := sgd_scale hc.ne' o.momentum o.dampening o.weightDecay o.nesterov (fun j => if 0 < lr j then lr j else o.learningRate) (fun j => g j i) (w0 i) n
  rw [← e] at h
  have h' := congrArg Prod.fst h
  exact h'

/-- RMSProp (plain or centred, with or without momentum): multiplying all gradients and the weight decay by `c > 0` and the epsilon by
`c²` changes nothing, over every history of calls. -/
theorem C106_rmsprop {c : ℝ} (hc : 0 < c) (o : RMSPropOptions ℝ)
    (mem : K → Tensor ℝ) (k : K) (ds : List Nat) (w0 : List Nat → ℝ) (hk : mem k = ofFn ds w0) (g : Nat → List Nat → ℝ) (lr : Nat → ℝ) (n : Nat) :
    ∃ a b : World K ℝ, World.run ⟨mem, .newRMSProp o⟩ (callsOn k ds g lr n) = .ok a ∧
      World.run ⟨mem, .newRMSProp { o with epsilon := c ^ 2 * o.epsilon, weightDecay := c * o.weightDecay }⟩
        (callsOn k ds (scaled c g) lr n) = .ok b ∧ b.mem = a.mem := by
  obtain ⟨a, h1, h2⟩ := C33_recurrence o mem k ds w0 hk g lr n
  obtain ⟨b, h3, h4⟩ := C33_recurrence { o with epsilon := c ^ 2 * o.epsilon, weightDecay := c * o.weightDecay } mem k ds w0 hk (scaled c g) lr n
  refine ⟨a, b, h1, h3, ?_⟩
  rw [h2, h4]
  congr 2
  funext i
  have h := congrArg RMS.w (rmsprop_scale hc o.alpha o.epsilon o.momentum o.weightDecay o.centered (fun j => if 0 < lr j then lr j else o.learningRate) (fun j => g j i) (w0 i) n)
  exact h

/-- Adam (with any learning rate decay and L1 and L2 penalties): multiplying all gradients and the epsilon by `c > 0` changes nothing,
over every history of calls, also when some calls leave the tensor out (`none`). -/
theorem C106_adam {c : ℝ} (hc : 0 < c) (o : AdamOptions ℝ)
    (mem : K → Tensor ℝ) (k : K) (ds : List Nat) (w0 : List Nat → ℝ) (hk : mem k = ofFn ds w0) (g : Nat → Option (List Nat → ℝ)) (lr : Nat → ℝ) (n : Nat) :
    ∃ a b : World K ℝ, World.run ⟨mem, .newAdam o⟩ (callsOpt k ds g lr n) = .ok a ∧
      World.run ⟨mem, .newAdam { o with epsilon := c * o.epsilon }⟩
        (callsOpt k ds (fun j => (g j).map fun f i => c * f i) lr n) = .ok b ∧ b.mem = a.mem := by
  obtain ⟨a, h1, h2⟩ := C34_trajectory_partial o mem k ds w0 hk g lr n
  obtain ⟨b, h3, h4⟩ := C34_trajectory_partial { o with epsilon := c * o.epsilon } mem k ds w0 hk (fun j => (g j).map fun f i => c * f i) lr n
  refine ⟨a, b, h1, h3, ?_⟩
  rw [h2, h4]
  congr 2
  funext i
  have h := adam_scale hc (adamFactor o) o.beta1 o.beta2 o.epsilon o.l1Strength o.l2Strength (adamRate o lr)
    (fun j => (g j).map (fun f => f i / (o.batchSize : ℝ))) (w0 i) n
  rw [← h]
  show adam (adamFactor o) _ _ _ _ _ (adamRate o lr) _ _ _ = _
  congr 1
  funext j
  cases g j with
  | none => rfl
  | some f => simp only [Option.map_some]; rw [mul_div_assoc]

/-- So without an epsilon the scale of the gradients does not matter at all to RMSProp (without weight decay) and Adam. -/
theorem C106_scale_free {c : ℝ} (hc : 0 < c) (o : RMSPropOptions ℝ) (ho : o.epsilon = 0) (hw : o.weightDecay = 0) (p : AdamOptions ℝ) (hp : p.epsilon = 0)
    (mem : K → Tensor ℝ) (k : K) (ds : List Nat) (w0 : List Nat → ℝ) (hk : mem k = ofFn ds w0) (g : Nat → List Nat → ℝ) (lr : Nat → ℝ) (n : Nat) :
    (∃ a b : World K ℝ, World.run ⟨mem, .newRMSProp o⟩ (callsOn k ds g lr n) = .ok a ∧
      World.run ⟨mem, .newRMSProp o⟩ (callsOn k ds (scaled c g) lr n) = .ok b ∧ b.mem = a.mem) ∧
    ∃ a b : World K ℝ, World.run ⟨mem, .newAdam p⟩ (callsOpt k ds (fun j => some (g j)) lr n) = .ok a ∧
      World.run ⟨mem, .newAdam p⟩ (callsOpt k ds (fun j => some (scaled c g j)) lr n) = .ok b ∧ b.mem = a.mem := by
  refine ⟨?_, ?_⟩
  · have h := C106_rmsprop hc o mem k ds w0 hk g lr n
    have e : ({ o with epsilon := c ^ 2 * o.epsilon, weightDecay := c * o.weightDecay } : RMSPropOptions ℝ) = o := by
      cases o; simp_all
    rw [e] at h
    exact h
  · have h := C106_adam hc p mem k ds w0 hk (fun j => some (g j)) lr n
    have e : ({ p with epsilon := c * p.epsilon } : AdamOptions ℝ) = p := by
      cases p; simp_all
    rw [e] at h
    exact h

/-- Adam's `batchSize` option only rescales the epsilon: a batch size of `B` is a batch size of 1 with `B` times the epsilon. -/
theorem C106_batch_size (o : AdamOptions ℝ) (hB : 0 < o.batchSize)
    (mem : K → Tensor ℝ) (k : K) (ds : List Nat) (w0 : List Nat → ℝ) (hk : mem k = ofFn ds w0) (g : Nat → Option (List Nat → ℝ)) (lr : Nat → ℝ) (n : Nat) :
    ∃ a b : World K ℝ, World.run ⟨mem, .newAdam o⟩ (callsOpt k ds g lr n) = .ok a ∧
      World.run ⟨mem, .newAdam { o with batchSize := 1, epsilon := o.batchSize * o.epsilon }⟩ (callsOpt k ds g lr n) = .ok b ∧ b.mem = a.mem := by
  obtain ⟨a, h1, h2⟩ := C34_trajectory_partial o mem k ds w0 hk g lr n
  obtain ⟨b, h3, h4⟩ := C34_trajectory_partial { o with batchSize := 1, epsilon := o.batchSize * o.epsilon } mem k ds w0 hk g lr n
  refine ⟨a, b, h1, h3, ?_⟩
  rw [h2, h4]
  congr 2
  funext i
  have hB' : (0 : ℝ) < o.batchSize := by exact_mod_cast hB
  have h := adam_scale hB' (adamFactor o) o.beta1 o.beta2 o.epsilon o.l1Strength o.l2Strength (adamRate o lr)
    (fun j => (g j).map (fun f => f i / (o.batchSize : ℝ))) (w0 i) n
  rw [← h]
  show adam (adamFactor o) _ _ _ _ _ (adamRate o lr) _ _ _ = _
  congr 1
  funext j
  cases g j with
  | none => rfl
  | some f =>
    simp only [Option.map_some]
    congr 1
    push_cast
    field_simp

/-- Reversing the sign of all gradients mirrors the path of the weights about where they started, for the three optimizers without
weight decay and penalties. -/
theorem C106_mirror (s : SGDOptions ℝ) (hs : s.weightDecay = 0) (o : RMSPropOptions ℝ) (ho : o.weightDecay = 0) (p : AdamOptions ℝ)
    (hp1 : p.l1Strength ≤ 0) (hp2 : p.l2Strength ≤ 0)
    (mem : K → Tensor ℝ) (k : K) (ds : List Nat) (w0 : List Nat → ℝ) (hk : mem k = ofFn ds w0) (g : Nat → List Nat → ℝ) (lr : Nat → ℝ) (n : Nat) :
    (∃ (a b : World K ℝ) (w : List Nat → ℝ), World.run ⟨mem, .newSGD s⟩ (callsOn k ds g lr n) = .ok a ∧
      World.run ⟨mem, .newSGD s⟩ (callsOn k ds (scaled (-1) g) lr n) = .ok b ∧ a.mem k = ofFn ds w ∧ b.mem k = ofFn ds fun i => 2 * w0 i - w i) ∧
    (∃ (a b : World K ℝ) (w : List Nat → ℝ), World.run ⟨mem, .newRMSProp o⟩ (callsOn k ds g lr n) = .ok a ∧
      World.run ⟨mem, .newRMSProp o⟩ (callsOn k ds (scaled (-1) g) lr n) = .ok b ∧ a.mem k = ofFn ds w ∧ b.mem k = ofFn ds fun i => 2 * w0 i - w i) ∧
    ∃ (a b : World K ℝ) (w : List Nat → ℝ), World.run ⟨mem, .newAdam p⟩ (callsOpt k ds (fun j => some (g j)) lr n) = .ok a ∧
      World.run ⟨mem, .newAdam p⟩ (callsOpt k ds (fun j => some (scaled (-1) g j)) lr n) = .ok b ∧
      a.mem k = ofFn ds w ∧ b.mem k = ofFn ds fun i => 2 * w0 i - w i := by
  refine ⟨?_, ?_, ?_⟩
  · obtain ⟨a, h1, h2⟩ := C32_recurrence s mem k ds w0 hk g lr n
    obtain ⟨b, h3, h4⟩ := C32_recurrence s mem k ds w0 hk (scaled (-1) g) lr n
    refine ⟨a, b, _, h1, h3, by rw [h2, assign_same], ?_⟩
    rw [h4, assign_same, hs]
    congr 1
    funext i
    have h := sgd_mirror s.momentum s.dampening s.nesterov (fun j => if 0 < lr j then lr j else s.learningRate) (fun j => g j i) (w0 i) n
    simp only [scaled, neg_one_mul]
    exact congrArg Prod.fst h
  · obtain ⟨a, h1, h2⟩ := C33_recurrence o mem k ds w0 hk g lr n
    obtain ⟨b, h3, h4⟩ := C33_recurrence o mem k ds w0 hk (scaled (-1) g) lr n
    refine ⟨a, b, _, h1, h3, by rw [h2, assign_same], ?_⟩
    rw [h4, assign_same, ho]
    congr 1
    funext i
    have h := rmsprop_mirror o.alpha o.epsilon o.momentum o.centered (fun j => if 0 < lr j then lr j else o.learningRate) (fun j => g j i) (w0 i) n
    simp only [scaled, neg_one_mul]
    exact congrArg RMS.w h
  · obtain ⟨a, h1, h2⟩ := C34_trajectory_partial p mem k ds w0 hk (fun j => some (g j)) lr n
    obtain ⟨b, h3, h4⟩ := C34_trajectory_partial p mem k ds w0 hk (fun j => some (scaled (-1) g j)) lr n
    refine ⟨a, b, _, h1, h3, by rw [h2, assign_same], ?_⟩
    rw [h4, assign_same]
    congr 1
    funext i
    have h := adam_mirror (adamFactor p) p.beta1 p.beta2 p.epsilon p.l1Strength p.l2Strength hp1 hp2 (adamRate p lr)
      (fun j => some (g j i / (p.batchSize : ℝ))) (w0 i) n
    simp only [Option.map_some] at h ⊢
    rw [← h]
    congr 1
    funext j
    simp only [scaled]
    congr 1
    ring

/-! ### The hypotheses are met -/

/-- Nesterov momentum and weight decay, three calls with gradients 1, 2, 4 and a rate given for the last one, and the same with gradients
ten times as large. -/
example : ∃ a b : World Nat ℝ,
    World.run ⟨fun _ => ofFn [2] fun _ => 5, .newSGD ⟨1 / 10, 9 / 10, 1 / 2, 1 / 100, true⟩⟩ (callsOn 0 [2] (fun j _ => 2 ^ j) (fun j => if j = 2 then 1 else 0) 3) = .ok a ∧
    World.run ⟨fun _ => ofFn [2] fun _ => 5, .newSGD ⟨1 / 10 / 10, 9 / 10, 1 / 2, 10 * (1 / 100), true⟩⟩
      (callsOn 0 [2] (scaled 10 fun j _ => 2 ^ j) (fun j => (if j = 2 then 1 else 0) / 10) 3) = .ok b ∧ b.mem = a.mem :=
  C106_sgd (by norm_num) ⟨1 / 10, 9 / 10, 1 / 2, 1 / 100, true⟩ _ 0 [2] (fun _ => 5) rfl _ _ 3

/-- The default options of Adam, with a batch size of 32. -/
example (g : Nat → Option (List Nat → ℝ)) : ∃ a b : World Nat ℝ,
    World.run ⟨fun _ => ofFn [2] fun _ => 5, .newAdam ⟨1 / 1000, 9 / 10, 999 / 1000, 1 / 10 ^ 8, 0, 0, 0, 32, 1 / 10 ^ 10⟩⟩ (callsOpt 0 [2] g (fun _ => 0) 100) = .ok a ∧
    World.run ⟨fun _ => ofFn [2] fun _ => 5, .newAdam ⟨1 / 1000, 9 / 10, 999 / 1000, ((32 : Int) : ℝ) * (1 / 10 ^ 8), 0, 0, 0, 1, 1 / 10 ^ 10⟩⟩ (callsOpt 0 [2] g (fun _ => 0) 100) = .ok b ∧
    b.mem = a.mem :=
  C106_batch_size ⟨1 / 1000, 9 / 10, 999 / 1000, 1 / 10 ^ 8, 0, 0, 0, 32, 1 / 10 ^ 10⟩ (by norm_num) _ 0 [2] (fun _ => 5) rfl g _ 100

end SmartDNN
