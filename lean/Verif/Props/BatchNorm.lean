import Verif.Proofs.BatchNorm

/-!
# Batch normalisation (C45-C47)
-/

namespace SmartDNN
open Spec

/-! ### C45 -/

theorem sum_map_affine {α : Type} (L : List α) (x : α → ℝ) (m s γ β : ℝ) :
    (L.map (fun a => (x a - m) / s * γ + β)).sum = ((L.map x).sum - L.length * m) / s * γ + L.length * β := by
  induction L with
  | nil => simp
  | cons a L ih =>
    simp only [List.map_cons, List.sum_cons, ih, List.length_cons]
    push_cast
    ring

theorem sum_map_scale {α : Type} (L : List α) (x : α → ℝ) (k : ℝ) : (L.map (fun a => x a * k)).sum = (L.map x).sum * k := by
  induction L with
  | nil => simp
  | cons a L ih => simp only [List.map_cons, List.sum_cons, ih]; ring

theorem featVar_nonneg (ds : List Nat) (f : List Nat → ℝ) (c : Nat) : 0 ≤ featVar ds f c := by
  unfold featVar
  refine div_nonneg (List.sum_nonneg ?_) (Nat.cast_nonneg _)
  intro x hx
  obtain ⟨i, -, rfl⟩ := List.mem_map.1 hx
  exact sq_nonneg _

theorem mem_featureIdx {ds i : List Nat} {c : Nat} (h : i ∈ featureIdx ds c) : i.getD 1 0 = c := by
  unfold featureIdx at h
  rw [List.mem_filter] at h
  exact of_decide_eq_true h.2

/-- What normalisation does to the statistics of one feature. -/
theorem bn_stats (ds : List Nat) (f γ β : List Nat → ℝ) (eps : ℝ) (heps : 0 < eps) (c : Nat) (hne : featureIdx ds c ≠ []) :
    featMean ds (fun i => bnOut eps (featMean ds f (i.getD 1 0)) (featVar ds f (i.getD 1 0))
        (γ [0, i.getD 1 0]) (β [0, i.getD 1 0]) (f i)) c = β [0, c] ∧
    featVar ds (fun i => bnOut eps (featMean ds f (i.getD 1 0)) (featVar ds f (i.getD 1 0))
        (γ [0, i.getD 1 0]) (β [0, i.getD 1 0]) (f i)) c =
      γ [0, c] ^ 2 * featVar ds f c / (featVar ds f c + eps) := by
  have hl : ((featureIdx ds c).length : ℝ) ≠ 0 := by
    rw [Nat.cast_ne_zero]
    exact fun h => hne (List.length_eq_zero_iff.1 h)
  have hpos : 0 < featVar ds f c + eps := add_pos_of_nonneg_of_pos (featVar_nonneg ds f c) heps
  have hsum : ((featureIdx ds c).map f).sum = (featureIdx ds c).length * featMean ds f c := by
    unfold featMean
    field_simp
  have key : ∀ i ∈ featureIdx ds c, bnOut eps (featMean ds f (i.getD 1 0)) (featVar ds f (i.getD 1 0))
        (γ [0, i.getD 1 0]) (β [0, i.getD 1 0]) (f i) =
      (f i - featMean ds f c) / Real.sqrt (featVar ds f c + eps) * γ [0, c] + β [0, c] := by
    intro i hi
    rw [mem_featureIdx hi]
    rfl
  have h1 : featMean ds (fun i => bnOut eps (featMean ds f (i.getD 1 0)) (featVar ds f (i.getD 1 0))
        (γ [0, i.getD 1 0]) (β [0, i.getD 1 0]) (f i)) c = β [0, c] := by
    rw [featMean, List.map_congr_left key, sum_map_affine, hsum]
    field_simp
    ring
  refine ⟨h1, ?_⟩
  rw [featVar, h1]
  have key2 : ∀ i ∈ featureIdx ds c, (bnOut eps (featMean ds f (i.getD 1 0)) (featVar ds f (i.getD 1 0))
        (γ [0, i.getD 1 0]) (β [0, i.getD 1 0]) (f i) - β [0, c]) ^ 2 =
      (f i - featMean ds f c) ^ 2 * (γ [0, c] ^ 2 / (featVar ds f c + eps)) := by
    intro i hi
    rw [key i hi, add_sub_cancel_right, mul_pow, div_pow, Real.sq_sqrt hpos.le]
    ring
  rw [List.map_congr_left key2, sum_map_scale]
  have : ((featureIdx ds c).map (fun i => (f i - featMean ds f c) ^ 2)).sum =
      (featureIdx ds c).length * featVar ds f c := by
    unfold featVar
    field_simp
  rw [this]
  field_simp

/-- State of a batch-normalisation layer for `F` features: scale and shift rows, running statistics of a
shape that `forward` produces. -/
structure BatchNorm.Ready (F : Nat) (l : BatchNorm ℝ) : Prop where
  gamma : ∃ γ, l.gamma = ofFn [1, F] γ
  beta : ∃ β, l.beta = ofFn [1, F] β
  running : ∃ rs m v, RunShape F rs ∧ Dims rs ∧ l.runningMean = ofFn rs m ∧ l.runningVariance = ofFn rs v

/-- Training mode, rank 2 (`ds = [n,F]`) and rank 4 (`ds = [n,F,h,w]`): every feature of the output has mean
beta and variance `gamma² var / (var + eps)`.  Exact real arithmetic, `eps > 0`. -/
theorem C45_training {F : Nat} {ds ch : List Nat} (hS : BNShape F ds ch) (hd : Dims ds) (l : BatchNorm ℝ)
    (hl : l.Ready F) (γ β f : List Nat → ℝ) (hγ : l.gamma = ofFn [1, F] γ) (hβ : l.beta = ofFn [1, F] β)
    (heps : 0 < l.epsilon) :
    ∃ (g : List Nat → ℝ) (l' : BatchNorm ℝ), BatchNorm.forward true (ofFn ds f) l = (.ok (ofFn ds g), l') ∧
      ∀ c < F, featMean ds g c = β [0, c] ∧
        featVar ds g c = γ [0, c] ^ 2 * featVar ds f c / (featVar ds f c + l.epsilon) := by
  obtain ⟨rs, m, v, hR, hr, hm, hv⟩ := hl.running
  refine ⟨_, _, bn_forward_train hS hd hR hr l γ β m v f hγ hβ hm hv, fun c hc => ?_⟩
  obtain ⟨i, hi, rfl⟩ := hS.zero_valid hd hc
  exact bn_stats ds f γ β l.epsilon heps _ (featureIdx_ne hi)

/-- Other ranks are rejected in both modes; the layer is unchanged. -/
theorem C45_rejects (training : Bool) (t : Tensor ℝ) (l : BatchNorm ℝ) (h2 : t.shape.rank ≠ 2) (h4 : t.shape.rank ≠ 4) :
    BatchNorm.forward training t l = (.error .runtimeError, l) := by
  unfold BatchNorm.forward
  rw [if_pos ⟨h2, h4⟩]
  rfl

/-- The constructor makes a ready layer. -/
theorem C45_constructed (F : Nat) (h : Dims [1, F]) (eps mom re : ℝ) :
    ∃ l, BatchNorm.new (F : Int) eps mom re = .ok l ∧ l.Ready F ∧ l.epsilon = eps ∧ l.momentum = mom ∧
      l.gamma = ofFn [1, F] (fun _ => 1) ∧ l.beta = ofFn [1, F] (fun _ => 0) ∧
      l.runningMean = ofFn [1, F] (fun _ => 0) ∧ l.runningVariance = ofFn [1, F] (fun _ => 1) := by
  unfold BatchNorm.new
  rw [show [1, (F : Int)] = ints [1, F] from rfl, make_dims h]
  simp only [Except.bind_ok', full_shapeOf]
  exact ⟨_, rfl, ⟨⟨_, rfl⟩, ⟨_, rfl⟩, ⟨[1, F], _, _, .row, h, rfl, rfl⟩⟩, rfl, rfl, rfl, rfl, rfl, rfl⟩

/-- Every forward call in either mode keeps the layer ready (so C45 applies after any history), provided
(1,F,1,F) is a shape of fewer than 2^31 elements or no rank-4 batch is trained on. -/
theorem C45_invariant {F : Nat} {ds ch : List Nat} (hS : BNShape F ds ch) (hd : Dims ds) (l : BatchNorm ℝ)
    (hl : l.Ready F) (hsq : ds.length = 4 → Dims [1, F, 1, F]) (f : List Nat → ℝ) (training : Bool) :
    (BatchNorm.forward training (ofFn ds f) l).2.Ready F := by
  obtain ⟨γ, hγ⟩ := hl.gamma
  obtain ⟨β, hβ⟩ := hl.beta
  obtain ⟨rs, m, v, hR, hr, hm, hv⟩ := hl.running
  cases training with
  | true =>
    rw [bn_forward_train hS hd hR hr l γ β m v f hγ hβ hm hv]
    obtain ⟨h1, h2, h3⟩ := run_next (hS.pos hd) hR hS
    refine ⟨⟨γ, hγ⟩, ⟨β, hβ⟩, ⟨_, _, _, h1, ?_, rfl, rfl⟩⟩
    cases hS with
    | four n h w =>
      rw [h2 (Or.inl rfl)]
      exact hsq rfl
    | two n =>
      cases hR with
      | row =>
        rw [h3 ⟨rfl, rfl⟩]
        exact hr
      | square =>
        rw [h2 (Or.inr rfl)]
        exact hr
  | false =>
    have : (BatchNorm.forward false (ofFn ds f) l).2 = l := by
      unfold BatchNorm.forward
      split
      · rfl
      · rw [if_neg (by simp), Mut.get_bind]
        cases BatchNorm.reshapeForBroadcast l.runningMean (ofFn ds f).shape with
        | error e => rfl
        | ok a =>
          rw [Mut.lift_ok_bind]
          cases BatchNorm.reshapeForBroadcast l.runningVariance (ofFn ds f).shape with
          | error e => rfl
          | ok b =>
            rw [Mut.lift_ok_bind]
            cases BatchNorm.reshapeForBroadcast l.gamma (ofFn ds f).shape with
            | error e => rfl
            | ok c =>
              rw [Mut.lift_ok_bind]
              cases BatchNorm.reshapeForBroadcast l.beta (ofFn ds f).shape with
              | error e => rfl
              | ok d =>
                rw [Mut.lift_ok_bind]
                cases BatchNorm.normalise (ofFn ds f) a b l.epsilon with
                | error e => rfl
                | ok n => rfl
    rw [this]
    exact hl

example : BNShape 2 [2, 2] [1, 2] ∧ BNShape 2 [2, 2, 3, 3] [1, 2, 1, 1] ∧ Dims [2, 2] ∧ Dims [2, 2, 3, 3] ∧
    Dims [1, 2, 1, 2] :=
  ⟨.two 2, .four 2 3 3, ⟨by simp, by simp, by decide⟩, ⟨by simp, by simp, by decide⟩, ⟨by simp, by simp, by decide⟩⟩

/-- The statistics of a concrete batch: feature 0 of the batch (1,·),(3,·) has mean 2 and variance 1. -/
example : featMean [2, 1] (fun i => if i = [0, 0] then 1 else 3) 0 = 2 ∧
    featVar [2, 1] (fun i => if i = [0, 0] then 1 else 3) 0 = 1 := by
  have hf : featureIdx [2, 1] 0 = [[0, 0], [1, 0]] := by decide
  have hm : featMean [2, 1] (fun i => if i = [0, 0] then 1 else 3) 0 = 2 := by
    rw [featMean, hf]
    norm_num
  refine ⟨hm, ?_⟩
  rw [featVar, hm, hf]
  norm_num

/-! ### C46 -/

/-- One `forward` call in a history: mode, input dimensions, input values. -/
structure BNCall where
  training : Bool
  ds : List Nat
  f : List Nat → ℝ

/-- Make the calls in order, ignoring the outputs; the first exception stops. -/
noncomputable def BNCall.runAll (cs : List BNCall) : Mut (BatchNorm ℝ) Unit :=
  match cs with
  | [] => pure ()
  | c :: cs => do
    let _ ← BatchNorm.forward c.training (ofFn c.ds c.f)
    BNCall.runAll cs

/-- Exponential average, with decay `mom` and start value `init`, of `stat` over the training calls. -/
noncomputable def BNCall.average (mom init : ℝ) (stat : BNCall → ℝ) (cs : List BNCall) : ℝ :=
  runningAvg mom init ((cs.filter (·.training)).map stat)

/-- Running statistics with value `M c` for feature `c`. -/
def BatchNorm.Holds (F : Nat) (l : BatchNorm ℝ) (M V : Nat → ℝ) : Prop :=
  ∃ rs, RunShape F rs ∧ Dims rs ∧ (rs = [1, F] ∨ F = 1) ∧ l.runningMean = ofFn rs (fun i => M (i.getD 1 0)) ∧
    l.runningVariance = ofFn rs (fun i => V (i.getD 1 0))

theorem proj_one_row {i : List Nat} (hv : ValidIdx [1, 1] i ∨ ValidIdx [1, 1, 1, 1] i) :
    (proj [1, 1] i).getD 1 0 = 0 ∧ (proj [1, 1, 1, 1] (0 :: 0 :: i)).getD 1 0 = 0 ∧ i.getD 1 0 = 0 := by
  rcases hv with hv | hv
  · obtain ⟨a, b, rfl, ha, hb⟩ := valid2_iff.1 hv
    exact ⟨rfl, rfl, by simp; omega⟩
  · obtain ⟨a, b, c, d, rfl, ha, hb, hc, hd⟩ := valid4_iff.1 hv
    exact ⟨rfl, rfl, by simp; omega⟩

theorem rfb_one {ds ch : List Nat} (hS : BNShape 1 ds ch) (hd : Dims ds) (x : ℝ) :
    BatchNorm.reshapeForBroadcast (ofFn [1, 1, 1, 1] (fun _ => x)) (shapeOf ds) = .ok (ofFn ch (fun _ => x)) := by
  have hc := hS.dims hd
  unfold BatchNorm.reshapeForBroadcast
  rw [ofFn_shape, get1]
  simp only [Except.bind_ok']
  cases hS with
  | two n =>
    rw [show wr (List.replicate (shapeOf [n, 1]).rank (1 : Int)) 1 ((1 : Nat) : Int) = .ok (ints [1, 1]) from rfl]
    simp only [Except.bind_ok']
    rw [if_pos (show (shapeOf [n, 1]).rank = 2 from rfl), show wr (ints [1, 1]) 0 1 = .ok (ints [1, 1]) from rfl]
    simp only [Except.bind_ok']
    rw [reshaped_ofFn hc (by simp), reinterpret_ofFn (by simp)]
  | four n h w =>
    rw [show wr (List.replicate (shapeOf [n, 1, h, w]).rank (1 : Int)) 1 ((1 : Nat) : Int) = .ok (ints [1, 1, 1, 1]) from rfl]
    simp only [Except.bind_ok']
    rw [if_neg (by simp), reshaped_ofFn hc (by simp), reinterpret_ofFn (by simp)]

/-- Evaluation of a layer whose running statistics hold per-feature values. -/
theorem bn_eval_holds {F : Nat} {ds ch : List Nat} (hS : BNShape F ds ch) (hd : Dims ds) (l : BatchNorm ℝ) (M V : Nat → ℝ)
    (hh : l.Holds F M V) (γ β f : List Nat → ℝ) (hγ : l.gamma = ofFn [1, F] γ) (hβ : l.beta = ofFn [1, F] β) :
    BatchNorm.forward false (ofFn ds f) l =
      (.ok (ofFn ds (fun i => (f i - M (i.getD 1 0)) / Real.sqrt (V (i.getD 1 0) + l.epsilon) *
        γ [0, i.getD 1 0] + β [0, i.getD 1 0])), l) := by
  obtain ⟨rs, hR, hr, h1, hm, hv⟩ := hh
  have key : ∀ X : Nat → ℝ, BatchNorm.reshapeForBroadcast (ofFn rs (fun i => X (i.getD 1 0))) (shapeOf ds) =
      .ok (ofFn ch (fun i => (fun j => X (j.getD 1 0)) [0, i.getD 1 0])) := by
    intro X
    cases hR with
    | row => exact rfb_row hS hd _
    | square =>
      rcases h1 with h1 | rfl
      · simp at h1
      have e1 : ofFn [1, 1, 1, 1] (fun i => X (i.getD 1 0)) = ofFn [1, 1, 1, 1] (fun _ => X 0) :=
        ofFn_congr fun i hi => by rw [(proj_one_row (Or.inr hi)).2.2]
      rw [e1, rfb_one hS hd]
      congr 1
      apply ofFn_congr
      intro i hi
      have : i.getD 1 0 = 0 := by
        cases hS with
        | two n => exact (proj_one_row (Or.inl hi)).2.2
        | four n h w => exact (proj_one_row (Or.inr hi)).2.2
      rw [this]
      rfl
  exact bn_forward_eval hS hd l γ β (fun j => M (j.getD 1 0)) (fun j => V (j.getD 1 0)) f hγ hβ
    (by rw [hm]; exact key M) (by rw [hv]; exact key V)

theorem bn_train_holds {F : Nat} {ds ch : List Nat} (hS : BNShape F ds ch) (hd : Dims ds) (l : BatchNorm ℝ) (M V : Nat → ℝ)
    (hh : l.Holds F M V) (h : ds.length = 2 ∨ F = 1) (γ β f : List Nat → ℝ) (hγ : l.gamma = ofFn [1, F] γ)
    (hβ : l.beta = ofFn [1, F] β) :
    ∃ (y : Tensor ℝ) (l' : BatchNorm ℝ), BatchNorm.forward true (ofFn ds f) l = (.ok y, l') ∧
      l'.gamma = l.gamma ∧ l'.beta = l.beta ∧ l'.epsilon = l.epsilon ∧ l'.momentum = l.momentum ∧
      l'.Holds F (fun c => M c * l.momentum + featMean ds f c * (1 - l.momentum))
        (fun c => V c * l.momentum + featVar ds f c * (1 - l.momentum)) := by
  obtain ⟨rs, hR, hr, h1, hm, hv⟩ := hh
  refine ⟨_, _, bn_forward_train hS hd hR hr l γ β _ _ f hγ hβ hm hv, rfl, rfl, rfl, rfl, ?_⟩
  have key : bdims rs ch = [1, F] ∧ rs = [1, F] ∧ ch = [1, F] ∨
      F = 1 ∧ (bdims rs ch = [1, 1] ∨ bdims rs ch = [1, 1, 1, 1]) := by
    cases hR with
    | row =>
      cases hS with
      | two n => exact Or.inl ⟨bdims_row_two F, rfl, rfl⟩
      | four n h' w =>
        rcases h with h | rfl
        · simp at h
        exact Or.inr ⟨rfl, Or.inr rfl⟩
    | square =>
      rcases h1 with h1 | rfl
      · simp at h1
      cases hS with
      | two n => exact Or.inr ⟨rfl, Or.inr rfl⟩
      | four n h' w => exact Or.inr ⟨rfl, Or.inr rfl⟩
  have row : ∀ X Y : Nat → ℝ, ofFn [1, F] (fun i => X ((proj [1, F] i).getD 1 0) * l.momentum +
      Y ((proj [1, F] i).getD 1 0) * (1 - l.momentum)) =
      ofFn [1, F] (fun i => X (i.getD 1 0) * l.momentum + Y (i.getD 1 0) * (1 - l.momentum)) := by
    intro X Y
    apply ofFn_congr
    intro i hi
    rw [proj_self hi]
  have one : ∀ X Y : Nat → ℝ, ∀ es, (es = [1, 1] ∨ es = [1, 1, 1, 1]) → F = 1 →
      ofFn es (fun i => X ((proj rs i).getD 1 0) * l.momentum + Y ((proj ch i).getD 1 0) * (1 - l.momentum)) =
      ofFn es (fun i => X (i.getD 1 0) * l.momentum + Y (i.getD 1 0) * (1 - l.momentum)) := by
    intro X Y es he hF
    subst hF
    apply ofFn_congr
    intro i hi
    have hi' : ValidIdx [1, 1] i ∨ ValidIdx [1, 1, 1, 1] i := by
      rcases he with rfl | rfl
      · exact Or.inl hi
      · exact Or.inr hi
    have e0 : i.getD 1 0 = 0 := (proj_one_row hi').2.2
    have e : ∀ xs, (xs = [1, 1] ∨ xs = [1, 1, 1, 1]) → (proj xs i).getD 1 0 = 0 := by
      intro xs hxs
      rcases hi' with hi' | hi'
      · obtain ⟨a, b, rfl, ha, hb⟩ := valid2_iff.1 hi'
        rcases hxs with rfl | rfl <;> rfl
      · obtain ⟨a, b, c, d, rfl, ha, hb, hc, hd⟩ := valid4_iff.1 hi'
        rcases hxs with rfl | rfl <;> rfl
    rw [e0, e rs (by cases hR <;> simp), e ch (by cases hS <;> simp)]
  rcases key with ⟨k1, rfl, rfl⟩ | ⟨rfl, k⟩
  · refine ⟨[1, F], .row, hr, Or.inl rfl, ?_, ?_⟩
    · dsimp only
      rw [k1]
      exact row M (featMean ds f)
    · dsimp only
      rw [k1]
      exact row V (featVar ds f)
  · refine ⟨bdims rs ch, (run_next (by decide) hR hS).1, ?_, Or.inr rfl, one M (featMean ds f) _ k rfl, one V (featVar ds f) _ k rfl⟩
    rcases k with k | k <;> rw [k] <;> exact ⟨by simp, by simp, by decide⟩

theorem bn_history {F : Nat} (γ β : List Nat → ℝ) : ∀ (cs : List BNCall) (l : BatchNorm ℝ) (M V : Nat → ℝ),
    (∀ c ∈ cs, Dims c.ds ∧ ∃ ch, BNShape F c.ds ch) →
    (F = 1 ∨ ∀ c ∈ cs, c.training = true → c.ds.length = 2) →
    l.gamma = ofFn [1, F] γ → l.beta = ofFn [1, F] β → l.Holds F M V →
    ∃ l', BNCall.runAll cs l = (.ok (), l') ∧ l'.gamma = l.gamma ∧ l'.beta = l.beta ∧ l'.epsilon = l.epsilon ∧
      l'.Holds F (fun c => BNCall.average l.momentum (M c) (fun call => featMean call.ds call.f c) cs)
        (fun c => BNCall.average l.momentum (V c) (fun call => featVar call.ds call.f c) cs) := by
  intro cs
  induction cs with
  | nil => intro l M V _ _ _ _ hh; exact ⟨l, rfl, rfl, rfl, rfl, hh⟩
  | cons c cs ih =>
    intro l M V hcs h2 hγ hβ hh
    obtain ⟨hd, ch, hS⟩ := hcs c (by simp)
    have hcs' : ∀ c ∈ cs, Dims c.ds ∧ ∃ ch, BNShape F c.ds ch := fun c hc => hcs c (by simp [hc])
    have h2' : F = 1 ∨ ∀ c ∈ cs, c.training = true → c.ds.length = 2 :=
      h2.imp id (fun h c hc => h c (by simp [hc]))
    unfold BNCall.runAll
    obtain ⟨tr, ds, f⟩ := c
    rw [Mut.bind_apply]
    cases tr with
    | false =>
      rw [bn_eval_holds hS hd l M V hh γ β f hγ hβ]
      obtain ⟨l', e1, e2, e3, e4, e5⟩ := ih l M V hcs' h2' hγ hβ hh
      exact ⟨l', e1, e2, e3, e4, e5⟩
    | true =>
      obtain ⟨y, l1, e1, g1, g2, g3, g4, g5⟩ := bn_train_holds hS hd l M V hh
        (h2.elim Or.inr (fun h => Or.inl (h _ (by simp) rfl))) γ β f hγ hβ
      simp only
      rw [e1]
      obtain ⟨l', k1, k2, k3, k4, k5⟩ := ih l1 _ _ hcs' h2' (g1.trans hγ) (g2.trans hβ) g5
      refine ⟨l', k1, k2.trans g1, k3.trans g2, k4.trans g3, ?_⟩
      rw [g4] at k5
      exact k5

/-- After any history of forward calls in both modes on a freshly constructed layer — training batches of
rank 2, or of any kind when there is one feature — evaluation succeeds on rank-2 and rank-4 inputs, applies
`(x - M) / sqrt(V + eps)` (scale 1 and shift 0 are still those of the constructor) with `M`, `V` the
exponential averages, from 0 and 1, of the batch means and variances, and leaves the layer unchanged.
Missing for the full property: histories with a rank-4 training batch and two or more features, where
evaluation throws (`C46_rank4_refuted`). -/
theorem C46_rank2_partial {F : Nat} (hF : Dims [1, F]) (eps mom re : ℝ) (cs : List BNCall)
    (hcs : ∀ c ∈ cs, Dims c.ds ∧ ∃ ch, BNShape F c.ds ch)
    (h2 : F = 1 ∨ ∀ c ∈ cs, c.training = true → c.ds.length = 2)
    {ds ch : List Nat} (hS : BNShape F ds ch) (hd : Dims ds) (f : List Nat → ℝ) :
    ∃ l l', BatchNorm.new (F : Int) eps mom re = .ok l ∧ BNCall.runAll cs l = (.ok (), l') ∧
      BatchNorm.forward false (ofFn ds f) l' = (.ok (ofFn ds (fun i =>
        (f i - BNCall.average mom 0 (fun b => featMean b.ds b.f (i.getD 1 0)) cs) /
          Real.sqrt (BNCall.average mom 1 (fun b => featVar b.ds b.f (i.getD 1 0)) cs + eps))), l') := by
  obtain ⟨l, e0, -, e1, e2, e3, e4, e5, e6⟩ := C45_constructed F hF eps mom re
  obtain ⟨l', k1, k2, k3, k4, k5⟩ := bn_history (F := F) (fun _ => 1) (fun _ => 0) cs l (fun _ => 0) (fun _ => 1) hcs h2
    e3 e4 ⟨[1, F], .row, hF, Or.inl rfl, e5, e6⟩
  refine ⟨l, l', e0, k1, ?_⟩
  rw [bn_eval_holds hS hd l' _ _ k5 (fun _ => 1) (fun _ => 0) f (k2.trans e3) (k3.trans e4), k4, e1, e2]
  refine Prod.ext ?_ rfl
  simp only [Except.ok.injEq]
  exact ofFn_congr fun i _ => by rw [mul_one, add_zero]

/-- The same for arbitrary scale and shift rows (for example loaded or trained ones). -/
theorem C46_affine_partial {F : Nat} (l : BatchNorm ℝ) (γ β : List Nat → ℝ) (M V : Nat → ℝ)
    (hγ : l.gamma = ofFn [1, F] γ) (hβ : l.beta = ofFn [1, F] β) (hh : l.Holds F M V) (cs : List BNCall)
    (hcs : ∀ c ∈ cs, Dims c.ds ∧ ∃ ch, BNShape F c.ds ch)
    (h2 : F = 1 ∨ ∀ c ∈ cs, c.training = true → c.ds.length = 2)
    {ds ch : List Nat} (hS : BNShape F ds ch) (hd : Dims ds) (f : List Nat → ℝ) :
    ∃ l', BNCall.runAll cs l = (.ok (), l') ∧
      BatchNorm.forward false (ofFn ds f) l' = (.ok (ofFn ds (fun i =>
        (f i - BNCall.average l.momentum (M (i.getD 1 0)) (fun b => featMean b.ds b.f (i.getD 1 0)) cs) /
          Real.sqrt (BNCall.average l.momentum (V (i.getD 1 0)) (fun b => featVar b.ds b.f (i.getD 1 0)) cs + l.epsilon) *
          γ [0, i.getD 1 0] + β [0, i.getD 1 0])), l') := by
  obtain ⟨l', k1, k2, k3, k4, k5⟩ := bn_history (F := F) γ β cs l M V hcs h2 hγ hβ hh
  refine ⟨l', k1, ?_⟩
  rw [bn_eval_holds hS hd l' _ _ k5 γ β f (k2.trans hγ) (k3.trans hβ), k4]

example : (∀ c ∈ [BNCall.mk true [3, 2] (fun i => i.sum), ⟨false, [1, 2, 2, 2], fun _ => 1⟩, ⟨true, [5, 2], fun _ => 0⟩],
    Dims c.ds ∧ ∃ ch, BNShape 2 c.ds ch) := by
  intro c hc
  simp only [List.mem_cons, List.not_mem_nil, or_false] at hc
  rcases hc with rfl | rfl | rfl
  · exact ⟨⟨by simp, by simp, by decide⟩, _, .two 3⟩
  · exact ⟨⟨by simp, by simp, by decide⟩, _, .four 1 2 2⟩
  · exact ⟨⟨by simp, by simp, by decide⟩, _, .two 5⟩

/-- The exponential average spelled out for two training batches with an evaluation between them. -/
example (m a b c : ℝ) : BNCall.average m 0 (fun x => x.f []) [⟨true, [3, 2], fun _ => a⟩, ⟨false, [3, 2], fun _ => c⟩,
    ⟨true, [3, 2], fun _ => b⟩] = (0 * m + a * (1 - m)) * m + b * (1 - m) := rfl

/-- With two or more features, one training call on a rank-4 batch breaks the layer: the running statistics
get shape (1,F,1,F) and every later evaluation, of rank-2 and rank-4 inputs alike, throws. -/
theorem C46_rank4_refuted {F : Nat} (h2 : 2 ≤ F) (hsq : Dims [1, F, 1, F]) (l : BatchNorm ℝ) (hl : l.Ready F)
    {n h w : Nat} (hd4 : Dims [n, F, h, w]) (x : List Nat → ℝ) (rest : List (List Nat × (List Nat → ℝ)))
    (hrest : ∀ b ∈ rest, Dims b.1 ∧ ∃ ch, BNShape F b.1 ch)
    {ds ch : List Nat} (hS : BNShape F ds ch) (hd : Dims ds) (f : List Nat → ℝ) :
    ∃ l', BNCall.runAll (⟨true, [n, F, h, w], x⟩ :: rest.map (fun b => ⟨true, b.1, b.2⟩)) l = (.ok (), l') ∧
      BatchNorm.forward false (ofFn ds f) l' = (.error .runtimeError, l') := by
  obtain ⟨γ, hγ⟩ := hl.gamma
  obtain ⟨β, hβ⟩ := hl.beta
  have hF : 0 < F := by omega
  have key : ∀ (rest : List (List Nat × (List Nat → ℝ))) (l : BatchNorm ℝ) (m v : List Nat → ℝ),
      (∀ b ∈ rest, Dims b.1 ∧ ∃ ch, BNShape F b.1 ch) → l.gamma = ofFn [1, F] γ → l.beta = ofFn [1, F] β →
      l.runningMean = ofFn [1, F, 1, F] m → l.runningVariance = ofFn [1, F, 1, F] v →
      ∃ l', BNCall.runAll (rest.map (fun b => ⟨true, b.1, b.2⟩)) l = (.ok (), l') ∧
        ∃ m', l'.runningMean = ofFn [1, F, 1, F] m' := by
    intro rest
    induction rest with
    | nil => intro l m v _ _ _ hm _; exact ⟨l, rfl, m, hm⟩
    | cons b rest ih =>
      intro l m v hb hγ hβ hm hv
      obtain ⟨hd, ch, hS⟩ := hb b (by simp)
      simp only [List.map_cons]
      unfold BNCall.runAll
      rw [Mut.bind_apply, bn_forward_train hS hd .square hsq l γ β m v b.2 hγ hβ hm hv]
      have hn := (run_next hF .square hS).2.1 (Or.inr rfl)
      exact ih _ _ _ (fun b hb' => hb b (by simp [hb'])) hγ hβ (by dsimp only; rw [hn]) (by dsimp only; rw [hn])
  have main : ∃ l', BNCall.runAll (⟨true, [n, F, h, w], x⟩ :: rest.map (fun b => ⟨true, b.1, b.2⟩)) l = (.ok (), l') ∧
        ∃ m', l'.runningMean = ofFn [1, F, 1, F] m' := by
    obtain ⟨rs, m, v, hR, hr, hm, hv⟩ := hl.running
    unfold BNCall.runAll
    rw [Mut.bind_apply, bn_forward_train (.four n h w) hd4 hR hr l γ β m v x hγ hβ hm hv]
    have hn := (run_next hF hR (.four n h w)).2.1 (Or.inl rfl)
    exact key rest _ _ _ hrest hγ hβ (by dsimp only; rw [hn]) (by dsimp only; rw [hn])
  obtain ⟨l', e1, m', e2⟩ := main
  refine ⟨l', e1, ?_⟩
  have hrank : ¬((ofFn ds f).shape.rank ≠ 2 ∧ (ofFn ds f).shape.rank ≠ 4) := by
    cases hS <;> simp
  unfold BatchNorm.forward
  rw [if_neg hrank, if_neg (by simp), ofFn_shape, Mut.get_bind, e2, rfb_square hS hd h2]
  rfl

/-! ### C47 -/

theorem bn_grads_ub {F : Nat} {ds ch : List Nat} (hS : BNShape F ds ch) (hd : Dims ds) (l : BatchNorm ℝ)
    (γ v n g : List Nat → ℝ) (hγ : l.gamma = ofFn [1, F] γ) : l.gradsWith BatchNorm.reshapeForBroadcast (ofFn ch v) (ofFn ds n) (ofFn ds g) = .error .ub := by
  have hoff : off (BatchNorm.axes (shapeOf ds)) ds = [F] := by cases hS <;> rfl
  have hsum : ∀ p : List Nat → ℝ, (ofFn ds p).sumAxes (BatchNorm.axes (shapeOf ds)) = .ok (ofFn [F] (fun j =>
      lsum (((indices ds).filter (fun i => decide (off (BatchNorm.axes (shapeOf ds)) i = j))).map p))) := by
    intro p
    obtain ⟨-, h2, -, -⟩ := hS.axes_ok
    rw [sumAxes_ofFn hd _ h2 (by rw [hoff]; simp), hoff]
  have hget : ∃ b, (shapeOf ds).get 0 = .ok b := by
    cases hS <;> exact ⟨_, rfl⟩
  obtain ⟨b, hb⟩ := hget
  have hub : ∀ (q : List Nat → ℝ) (s : Shape), BatchNorm.reshapeForBroadcast (ofFn [F] q) s = .error .ub := fun _ _ => rfl
  have hmul : (ofFn ds g).mul (ofFn ch (fun i => γ [0, i.getD 1 0])) =
      .ok (ofFn ds (fun i => g i * γ [0, i.getD 1 0])) := binop_chan _ hS hd g γ
  unfold BatchNorm.gradsWith
  dsimp only
  rw [ofFn_shape, hb]
  simp only [Except.bind_ok']
  rw [hγ, rfb_row hS hd]
  simp only [Except.bind_ok']
  rw [mul_same hd]
  simp only [Except.bind_ok']
  rw [hsum]
  simp only [Except.bind_ok']
  rw [hsum]
  simp only [Except.bind_ok']
  rw [hmul]
  simp only [Except.bind_ok', Tensor.addScalar]
  rw [map_ofFn]
  simp only [Except.bind_ok']
  rw [rfb_chan hS hd]
  simp only [Except.bind_ok', Tensor.apply, Tensor.reciprocal]
  rw [map_ofFn]
  simp only [Except.bind_ok']
  rw [map_ofFn]
  simp only [Except.bind_ok']
  rw [mul_same hd]
  simp only [Except.bind_ok']
  rw [hsum]
  simp only [Except.bind_ok']
  rw [hub]
  rfl

theorem bn_backward_ub {F : Nat} {ds ch : List Nat} (hS : BNShape F ds ch) (hd : Dims ds) (l : BatchNorm ℝ)
    (γ m v n g : List Nat → ℝ) (hγ : l.gamma = ofFn [1, F] γ) (h1 : l.batchMean = some (ofFn ch m))
    (h2 : l.batchVariance = some (ofFn ch v)) (h3 : l.normalizedInput = some (ofFn ds n)) :
    BatchNorm.backward (ofFn ds g) l = (.error .ub, l) := by
  unfold BatchNorm.backward BatchNorm.backwardWith
  rw [Mut.get_bind, h1, h2, h3]
  dsimp only
  rw [bn_grads_ub hS hd l γ v n g hγ, Mut.lift_error_bind]

/-- `backward` after a training call has undefined behaviour for every gradient of the input's shape: the
summed gradient has rank 1 and `reshapeForBroadcast` reads its second dimension. -/
theorem C47_refuted {F : Nat} {ds ch : List Nat} (hS : BNShape F ds ch) (hd : Dims ds) (l : BatchNorm ℝ)
    (hl : l.Ready F) (f g : List Nat → ℝ) :
    ∃ y l', BatchNorm.forward true (ofFn ds f) l = (.ok y, l') ∧
      BatchNorm.backward (ofFn ds g) l' = (.error .ub, l') := by
  obtain ⟨γ, hγ⟩ := hl.gamma
  obtain ⟨β, hβ⟩ := hl.beta
  obtain ⟨rs, m, v, hR, hr, hm, hv⟩ := hl.running
  refine ⟨_, _, bn_forward_train hS hd hR hr l γ β m v f hγ hβ hm hv, ?_⟩
  exact bn_backward_ub hS hd _ γ _ _ _ g hγ rfl rfl rfl

end SmartDNN
