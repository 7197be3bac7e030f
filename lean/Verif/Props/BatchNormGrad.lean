import Verif.Props.BatchNorm
import Verif.Proofs.Calculus
import Verif.Spec.Calculus
import Mathlib.Analysis.SpecialFunctions.Sqrt

/-!
# The gradients of batch normalisation (C47)

`backward` reads past the end of a shape, which is undefined behaviour (`C47_refuted`).  The theorems here say what it returns in
a build where that read happens to yield some number and does no other harm (`BatchNorm.backwardReading`).
-/

namespace SmartDNN
open Spec

namespace Spec

/-- The input, normalised with the statistics of its features. -/
noncomputable def normalised (ds : List Nat) (eps : ℝ) (x : List Nat → ℝ) (i : List Nat) : ℝ :=
  (x i - featMean ds x (i.getD 1 0)) / Real.sqrt (featVar ds x (i.getD 1 0) + eps)

/-- Batch normalisation in training mode with scales `γ` and shifts `β` (one per feature). -/
noncomputable def batchNorm (ds : List Nat) (eps : ℝ) (γ β : Nat → ℝ) (x : List Nat → ℝ) (i : List Nat) : ℝ :=
  normalised ds eps x i * γ (i.getD 1 0) + β (i.getD 1 0)

/-- Sum over the positions of feature `c`. -/
def featSum (ds : List Nat) (p : List Nat → ℝ) (c : Nat) : ℝ := ((featureIdx ds c).map p).sum

/-- The gradient with respect to the input, from the textbook. -/
noncomputable def bnGradient (ds : List Nat) (eps : ℝ) (γ : Nat → ℝ) (x g : List Nat → ℝ) (i : List Nat) : ℝ :=
  γ (i.getD 1 0) / Real.sqrt (featVar ds x (i.getD 1 0) + eps) *
    (g i - featMean ds g (i.getD 1 0) -
      normalised ds eps x i * featMean ds (fun j => g j * normalised ds eps x j) (i.getD 1 0))

end Spec

/-! ## The textbook gradient is the gradient -/

theorem featSum_filter (ds : List Nat) (p : List Nat → ℝ) (c : Nat) :
    featSum ds p c = ((indices ds).map (fun i => if i.getD 1 0 = c then p i else 0)).sum := by
  unfold featSum featureIdx
  induction indices ds with
  | nil => rfl
  | cons a L ih => by_cases h : a.getD 1 0 = c <;> simp_all

theorem list_sum_comm {α β : Type} (L : List α) (K : List β) (q : α → β → ℝ) :
    (L.map (fun a => (K.map (fun b => q a b)).sum)).sum = (K.map (fun b => (L.map (fun a => q a b)).sum)).sum := by
  induction L with
  | nil => simp
  | cons a L ih =>
    simp only [List.map_cons, List.sum_cons, ih]
    clear ih
    induction K with
    | nil => simp
    | cons b K ih =>
      simp only [List.map_cons, List.sum_cons]
      linarith

/-- Averaging over features is self-adjoint. -/
theorem featMean_adjoint (ds : List Nat) (p q : List Nat → ℝ) :
    total ds (fun i => p i * featMean ds q (i.getD 1 0)) = total ds (fun i => featMean ds p (i.getD 1 0) * q i) := by
  unfold total
  have e1 : ∀ i : List Nat, p i * featMean ds q (i.getD 1 0) = ((indices ds).map (fun j =>
      if j.getD 1 0 = i.getD 1 0 then p i * q j / ((featureIdx ds (i.getD 1 0)).length : ℝ) else 0)).sum := by
    intro i
    unfold featMean
    rw [← featSum, featSum_filter]
    generalize indices ds = L
    generalize ((featureIdx ds (i.getD 1 0)).length : ℝ) = n
    induction L with
    | nil => simp
    | cons j L ih =>
      simp only [List.map_cons, List.sum_cons, ← ih]
      split <;> ring
  have e2 : ∀ j : List Nat, featMean ds p (j.getD 1 0) * q j = ((indices ds).map (fun i =>
      if j.getD 1 0 = i.getD 1 0 then p i * q j / ((featureIdx ds (i.getD 1 0)).length : ℝ) else 0)).sum := by
    intro j
    unfold featMean
    rw [← featSum, featSum_filter]
    generalize indices ds = L
    generalize hn : (fun c => ((featureIdx ds c).length : ℝ)) = n
    have hn' : ∀ c, ((featureIdx ds c).length : ℝ) = n c := fun c => by rw [← hn]
    simp only [hn']
    induction L with
    | nil => simp
    | cons i L ih =>
      simp only [List.map_cons, List.sum_cons, ← ih]
      by_cases h : i.getD 1 0 = j.getD 1 0
      · rw [if_pos h, if_pos h.symm, h]
        ring
      · rw [if_neg h, if_neg (fun e => h e.symm)]
        ring
  simp only [e1, e2]
  exact list_sum_comm _ _ _

theorem featMean_scale (ds : List Nat) (k : Nat → ℝ) (p : List Nat → ℝ) (c : Nat) :
    featMean ds (fun i => k (i.getD 1 0) * p i) c = k c * featMean ds p c := by
  unfold featMean
  rw [show (featureIdx ds c).map (fun i => k (i.getD 1 0) * p i) = (featureIdx ds c).map (fun i => p i * k c) from
    List.map_congr_left fun i hi => by rw [mem_featureIdx hi, mul_comm], sum_map_scale]
  ring

theorem featMean_sub (ds : List Nat) (p q : List Nat → ℝ) (c : Nat) :
    featMean ds (fun i => p i - q i) c = featMean ds p c - featMean ds q c := by
  unfold featMean
  rw [← sub_div]
  congr 1
  induction featureIdx ds c with
  | nil => simp
  | cons a L ih =>
    simp only [List.map_cons, List.sum_cons, ih]
    ring

theorem featMean_const (ds : List Nat) (k : Nat → ℝ) (c : Nat) (hne : featureIdx ds c ≠ []) :
    featMean ds (fun i => k (i.getD 1 0)) c = k c := by
  have hl : ((featureIdx ds c).length : ℝ) ≠ 0 := by
    rw [Nat.cast_ne_zero]
    exact fun h => hne (List.length_eq_zero_iff.1 h)
  unfold featMean
  rw [show (featureIdx ds c).map (fun i => k (i.getD 1 0)) = (featureIdx ds c).map (fun _ => k c) from
    List.map_congr_left fun i hi => by rw [mem_featureIdx hi]]
  simp only [List.map_const', List.sum_replicate, nsmul_eq_mul]
  field_simp

theorem valid_of_featureIdx {ds i : List Nat} {c : Nat} (h : i ∈ featureIdx ds c) : ValidIdx ds i := by
  unfold featureIdx at h
  exact mem_indices.1 (List.mem_filter.1 h).1

theorem featMean_congr {ds : List Nat} {p q : List Nat → ℝ} (h : ∀ i, ValidIdx ds i → p i = q i) (c : Nat) :
    featMean ds p c = featMean ds q c := by
  unfold featMean
  rw [List.map_congr_left fun i hi => h i (valid_of_featureIdx hi)]

theorem featVar_congr {ds : List Nat} {p q : List Nat → ℝ} (h : ∀ i, ValidIdx ds i → p i = q i) (c : Nat) :
    featVar ds p c = featVar ds q c := by
  unfold featVar
  rw [featMean_congr h, List.map_congr_left fun i hi => by rw [h i (valid_of_featureIdx hi)]]

theorem featMean_deriv {ds : List Nat} {c : ℝ → List Nat → ℝ} {f v : List Nat → ℝ} (h : CurveAt ds c f v) (k : Nat) :
    HasDerivAt (fun t => featMean ds (c t) k) (featMean ds v k) 0 := by
  unfold featMean
  exact (hasDerivAt_list_sum (featureIdx ds k) (fun i t => c t i) v 0 fun i hi => h.2 i (valid_of_featureIdx hi)).div_const _

theorem featVar_deriv {ds : List Nat} {c : ℝ → List Nat → ℝ} {f v : List Nat → ℝ} (h : CurveAt ds c f v) (k : Nat)
    (hne : featureIdx ds k ≠ []) :
    HasDerivAt (fun t => featVar ds (c t) k) (2 * featMean ds (fun i => (f i - featMean ds f k) * v i) k) 0 := by
  have hl : ((featureIdx ds k).length : ℝ) ≠ 0 := by
    rw [Nat.cast_ne_zero]
    exact fun h => hne (List.length_eq_zero_iff.1 h)
  have hm := featMean_deriv h k
  have h0 : featMean ds (c 0) k = featMean ds f k := featMean_congr h.1 k
  have h1 := (hasDerivAt_list_sum (featureIdx ds k) (fun i t => (c t i - featMean ds (c t) k) ^ 2)
    (fun i => 2 * (f i - featMean ds f k) * (v i - featMean ds v k)) 0 fun i hi => by
      have hv := valid_of_featureIdx hi
      have := ((h.2 i hv).sub hm).pow 2
      refine this.congr_deriv ?_
      simp only [Pi.sub_apply, h0, h.1 i hv]
      push_cast
      ring).div_const ((featureIdx ds k).length : ℝ)
  unfold featVar
  refine h1.congr_deriv ?_
  have hz : ((featureIdx ds k).map (fun i => f i - featMean ds f k)).sum = 0 := by
    have : ((featureIdx ds k).map (fun i => f i - featMean ds f k)).sum =
        ((featureIdx ds k).map f).sum - (featureIdx ds k).length * featMean ds f k := by
      induction featureIdx ds k with
      | nil => simp
      | cons a L ih =>
        simp only [List.map_cons, List.sum_cons, ih, List.length_cons]
        push_cast
        ring
    rw [this]
    unfold featMean
    field_simp
    ring
  have e : ((featureIdx ds k).map (fun i => 2 * (f i - featMean ds f k) * (v i - featMean ds v k))).sum =
      2 * ((featureIdx ds k).map (fun i => (f i - featMean ds f k) * v i)).sum -
        2 * featMean ds v k * ((featureIdx ds k).map (fun i => f i - featMean ds f k)).sum := by
    induction featureIdx ds k with
    | nil => simp
    | cons a L ih =>
      simp only [List.map_cons, List.sum_cons, ih]
      ring
  rw [e, hz, mul_zero, sub_zero, mul_div_assoc]
  rfl

/-- The transposed derivative of batch normalisation with respect to its input. -/
theorem batchNorm_vjp (ds : List Nat) (eps : ℝ) (heps : 0 < eps) (γ β : Nat → ℝ) (x : List Nat → ℝ) :
    HasVJP ds ds (batchNorm ds eps γ β) x (bnGradient ds eps γ x) := by
  intro g c v hc
  have hσ : ∀ k, 0 < featVar ds x k + eps := fun k => add_pos_of_nonneg_of_pos (featVar_nonneg ds x k) heps
  set σ : Nat → ℝ := fun k => Real.sqrt (featVar ds x k + eps) with hσd
  have hσp : ∀ k, 0 < σ k := fun k => Real.sqrt_pos.2 (hσ k)
  have h1 := hasDerivAt_total (ds := ds) (fun i t => g i * batchNorm ds eps γ β (c t) i)
    (fun i => g i * (((v i - featMean ds v (i.getD 1 0)) / σ (i.getD 1 0) -
      (x i - featMean ds x (i.getD 1 0)) * featMean ds (fun j => (x j - featMean ds x (i.getD 1 0)) * v j) (i.getD 1 0) /
        σ (i.getD 1 0) ^ 3) * γ (i.getD 1 0))) 0 (fun i hi => by
      have hne := featureIdx_ne hi
      have hV := (featVar_deriv hc (i.getD 1 0) hne).add_const eps
      have h0 : featVar ds (c 0) (i.getD 1 0) = featVar ds x (i.getD 1 0) := featVar_congr hc.1 _
      have hm0 : featMean ds (c 0) (i.getD 1 0) = featMean ds x (i.getD 1 0) := featMean_congr hc.1 _
      have hs := hV.sqrt (by rw [h0]; exact (hσ _).ne')
      have hq := ((hc.2 i hi).sub (featMean_deriv hc (i.getD 1 0))).div hs (by
        simp only [h0]
        exact (hσp _).ne')
      have := ((hq.mul_const (γ (i.getD 1 0))).add_const (β (i.getD 1 0))).const_mul (g i)
      refine this.congr_deriv ?_
      simp only [Pi.sub_apply, h0, hm0, hc.1 i hi]
      have hp := hσp (i.getD 1 0)
      have hne' : Real.sqrt (featVar ds x (i.getD 1 0) + eps) ≠ 0 := hp.ne'
      simp only [hσd]
      field_simp)
  refine h1.congr_deriv ?_
  have key : ∀ k, featMean ds (fun j => (x j - featMean ds x k) * v j) k =
      featMean ds (fun j => (x j - featMean ds x (j.getD 1 0)) * v j) k := by
    intro k
    unfold featMean
    congr 1
    refine congrArg _ (List.map_congr_left fun i hi => ?_)
    rw [mem_featureIdx hi]
  simp only [key]
  have split : ∀ (p q r : List Nat → ℝ), total ds (fun i => p i - q i - r i) = total ds p - total ds q - total ds r := by
    intro p q r
    unfold total
    induction indices ds with
    | nil => simp
    | cons a L ih =>
      simp only [List.map_cons, List.sum_cons, ih]
      ring
  have e1 : total ds (fun i => g i * (((v i - featMean ds v (i.getD 1 0)) / σ (i.getD 1 0) -
      (x i - featMean ds x (i.getD 1 0)) * featMean ds (fun j => (x j - featMean ds x (j.getD 1 0)) * v j) (i.getD 1 0) /
        σ (i.getD 1 0) ^ 3) * γ (i.getD 1 0))) =
      total ds (fun i => g i * γ (i.getD 1 0) / σ (i.getD 1 0) * v i -
        (γ (i.getD 1 0) / σ (i.getD 1 0) * g i) * featMean ds v (i.getD 1 0) -
        (γ (i.getD 1 0) / σ (i.getD 1 0) ^ 3 * (g i * (x i - featMean ds x (i.getD 1 0)))) *
          featMean ds (fun j => (x j - featMean ds x (j.getD 1 0)) * v j) (i.getD 1 0)) :=
    total_congr fun i _ => by ring
  rw [e1, split, featMean_adjoint, featMean_adjoint, ← split]
  apply total_congr
  intro i hi
  rw [featMean_scale ds (fun k => γ k / σ k) g, featMean_scale ds (fun k => γ k / σ k ^ 3)
    (fun i => g i * (x i - featMean ds x (i.getD 1 0)))]
  have e2 : featMean ds (fun i => g i * (x i - featMean ds x (i.getD 1 0))) (i.getD 1 0) =
      σ (i.getD 1 0) * featMean ds (fun j => g j * normalised ds eps x j) (i.getD 1 0) := by
    rw [← featMean_scale ds σ]
    refine featMean_congr (fun j _ => ?_) _
    unfold normalised
    have := (hσp (j.getD 1 0)).ne'
    simp only [hσd] at this ⊢
    field_simp
  rw [e2]
  unfold bnGradient
  have hx : x i - featMean ds x (i.getD 1 0) = σ (i.getD 1 0) * normalised ds eps x i := by
    unfold normalised
    have := (hσp (i.getD 1 0)).ne'
    simp only [hσd] at this ⊢
    field_simp
  rw [hx]
  have := (hσp (i.getD 1 0)).ne'
  simp only [hσd] at this ⊢
  field_simp

/-! ## What `backward` computes -/

/-- Per-feature values of dimensions `[F]`, reshaped for broadcasting, if the read past the end of their shape returns `F`. -/
theorem reshapeReading_sums {F : Nat} {ds ch : List Nat} (hS : BNShape F ds ch) (hd : Dims ds) (p : List Nat → ℝ)
    (es : List Nat) (he : es = ds ∨ es = ch) :
    BatchNorm.reshapeReading (F : Int) (ofFn [F] p) (shapeOf es) = .ok (ofFn ch (fun i => p [i.getD 1 0])) := by
  have hc := hS.dims hd
  have hF := hS.pos hd
  unfold BatchNorm.reshapeReading
  rw [if_pos (show (ofFn [F] p).shape.rank = 1 from by rw [ofFn_shape, shapeOf_rank]; rfl)]
  have h2 : ∀ es : List Nat, es.length = 2 → ch = [1, F] →
      (do
        let newShape ← wr (List.replicate (shapeOf es).rank (1 : Int)) 1 (F : Int)
        let newShape ← if (shapeOf es).rank = 2 then wr newShape 0 1 else .ok newShape
        (ofFn [F] p).reshaped newShape) = .ok (ofFn ch (fun i => p [i.getD 1 0])) := by
    intro es hl hch
    subst hch
    rw [shapeOf_rank, hl, show wr (List.replicate 2 (1 : Int)) 1 (F : Int) = .ok [1, (F : Int)] from rfl]
    simp only [Except.bind_ok', if_true]
    rw [show wr [1, (F : Int)] 0 1 = .ok (ints [1, F]) from rfl]
    simp only [Except.bind_ok']
    rw [reshaped_ofFn hc (by simp), reinterpret_ofFn (by simp)]
    refine congrArg Except.ok (ofFn_congr fun i hi => ?_)
    obtain ⟨a, b, rfl, ha, hb⟩ := valid2_iff.1 hi
    have h0 : a = 0 := by omega
    subst h0
    have hv : ValidIdx [F] [b] := valid1_iff.2 ⟨b, rfl, hb⟩
    unfold reindex
    have : ravel [1, F] [0, b] = ravel [F] [b] := by simp [ravel]
    rw [this, List.getD_eq_getElem?_getD, indices_ravel hv]
    rfl
  have h4 : ∀ es : List Nat, es.length = 4 → ch = [1, F, 1, 1] →
      (do
        let newShape ← wr (List.replicate (shapeOf es).rank (1 : Int)) 1 (F : Int)
        let newShape ← if (shapeOf es).rank = 2 then wr newShape 0 1 else .ok newShape
        (ofFn [F] p).reshaped newShape) = .ok (ofFn ch (fun i => p [i.getD 1 0])) := by
    intro es hl hch
    subst hch
    rw [shapeOf_rank, hl, show wr (List.replicate 4 (1 : Int)) 1 (F : Int) = .ok (ints [1, F, 1, 1]) from rfl]
    simp only [Except.bind_ok']
    rw [if_neg (by simp)]
    rw [reshaped_ofFn hc (by simp), reinterpret_ofFn (by simp)]
    refine congrArg Except.ok (ofFn_congr fun i hi => ?_)
    obtain ⟨a, b, y, z, rfl, ha, hb, hy, hz⟩ := valid4_iff.1 hi
    have h0 : a = 0 := by omega
    have h1 : y = 0 := by omega
    have h2 : z = 0 := by omega
    subst h0 h1 h2
    have hv : ValidIdx [F] [b] := valid1_iff.2 ⟨b, rfl, hb⟩
    unfold reindex
    have : ravel [1, F, 1, 1] [0, b, 0, 0] = ravel [F] [b] := by simp [ravel]
    rw [this, List.getD_eq_getElem?_getD, indices_ravel hv]
    rfl
  cases hS with
  | two n => rcases he with rfl | rfl <;> exact h2 _ rfl rfl
  | four n h w => rcases he with rfl | rfl <;> exact h4 _ rfl rfl

theorem featSum_scale (ds : List Nat) (p : List Nat → ℝ) (r : Nat → ℝ) (c : Nat) :
    featSum ds (fun i => p i * r (i.getD 1 0)) c = featSum ds p c * r c := by
  unfold featSum
  rw [← List.sum_map_mul_right]
  refine congrArg List.sum (List.map_congr_left fun i hi => ?_)
  rw [mem_featureIdx hi]

/-- What `backward` returns for the input if the reads past the end of a shape return the number of features. -/
noncomputable def Spec.bnReturned (ds : List Nat) (eps : ℝ) (γ : Nat → ℝ) (x g : List Nat → ℝ) (i : List Nat) : ℝ :=
  γ (i.getD 1 0) / Real.sqrt (featVar ds x (i.getD 1 0) + eps) *
    (g i - featSum ds g (i.getD 1 0) / ds.getD 0 0 -
      normalised ds eps x i * (featSum ds (fun j => g j * normalised ds eps x j) (i.getD 1 0) / ds.getD 0 0) /
        (featVar ds x (i.getD 1 0) + eps))

theorem binop_chan' {T : Type} {F : Nat} {ds ch : List Nat} [Zero T] (op : T → T → T) (hS : BNShape F ds ch) (hd : Dims ds)
    (f p : List Nat → T) :
    (ofFn ch (fun i => p [0, i.getD 1 0])).binop op (ofFn ds f) =
      .ok (ofFn ds (fun i => op (p [0, i.getD 1 0]) (f i))) := by
  have hc := hS.dims hd
  have h := binop_chan (fun a b => op b a) hS hd f p
  have hcompat : Compat ds ch := by
    cases hS with
    | two n =>
      intro i
      rcases i with _ | _ | i
      · left; rfl
      · right; right; rfl
      · left
        rw [dimR_cons_lt _ (by simp), dimR_cons_lt _ (by simp)]
    | four n h w =>
      intro i
      rcases i with _ | _ | _ | _ | i
      · right; right; rfl
      · right; right; rfl
      · left; rfl
      · right; right; rfl
      · left
        rw [dimR_cons_lt _ (by simp), dimR_cons_lt _ (by simp)]
  rw [binop_ofFn _ hd hc hcompat] at h
  rw [binop_ofFn _ hc hd hcompat.symm, bdims_comm]
  exact h

theorem bn_backward_reading {F : Nat} {ds ch : List Nat} (hS : BNShape F ds ch) (hd : Dims ds) (l : BatchNorm ℝ)
    (γ x g : List Nat → ℝ) (hγ : l.gamma = ofFn [1, F] γ) (heps : 0 < l.epsilon)
    (hre : ∀ c < F, l.recipEps < Real.sqrt (featVar ds x c + l.epsilon)) :
    l.gradsWith (BatchNorm.reshapeReading (F : Int)) (ofFn ch (fun i => featVar ds x (i.getD 1 0)))
        (ofFn ds (normalised ds l.epsilon x)) (ofFn ds g) =
      .ok (ofFn ds (bnReturned ds l.epsilon (fun c => γ [0, c]) x g),
        ofFn [F] (fun j => featSum ds (fun i => g i * normalised ds l.epsilon x i) (j.getD 0 0)),
        ofFn [F] (fun j => featSum ds g (j.getD 0 0))) := by
  have hc := hS.dims hd
  have hoff : off (BatchNorm.axes (shapeOf ds)) ds = [F] := by cases hS <;> rfl
  have hsum : ∀ p : List Nat → ℝ, (ofFn ds p).sumAxes (BatchNorm.axes (shapeOf ds)) = .ok (ofFn [F] (fun j =>
      featSum ds p (j.getD 0 0))) := by
    intro p
    obtain ⟨-, h2, -, -⟩ := hS.axes_ok
    rw [sumAxes_ofFn hd _ h2 (by rw [hoff]; simp), hoff]
    refine congrArg Except.ok (ofFn_congr fun j hj => ?_)
    obtain ⟨c, rfl, hcF⟩ := valid1_iff.1 hj
    have hv : ValidIdx ch (if ch.length = 2 then [0, c] else [0, c, 0, 0]) := by
      cases hS with
      | two n => exact valid2_iff.2 ⟨0, c, rfl, by simp, hcF⟩
      | four n h w => exact valid4_iff.2 ⟨0, c, 0, 0, rfl, by simp, hcF, by simp, by simp⟩
    have hf := hS.filter hv
    have h1 : off (BatchNorm.axes (shapeOf ds)) (if ch.length = 2 then [0, c] else [0, c, 0, 0]) = [c] := by
      cases hS <;> rfl
    have h3 : (if ch.length = 2 then [0, c] else [0, c, 0, 0] : List Nat).getD 1 0 = c := by cases hS <;> rfl
    rw [h1, h3] at hf
    rw [hf, lsum_eq_sum]
    rfl
  have hget : (shapeOf ds).get 0 = .ok ((ds.getD 0 0 : Nat) : Int) := by
    cases hS <;> rfl
  have hN : ((((ds.getD 0 0 : Nat) : Int)) : ℝ) ≠ 0 := by
    have : 0 < ds.getD 0 0 := by
      cases hS with
      | two n => exact hd.pos n (by simp)
      | four n h w => exact hd.pos n (by simp)
    simp only [Int.cast_natCast]
    exact_mod_cast this.ne'
  have row : ∀ p : List Nat → ℝ, BatchNorm.reshapeReading (F : Int) (ofFn [1, F] p) (shapeOf ds) =
      .ok (ofFn ch (fun i => p [0, i.getD 1 0])) := fun p => by
    unfold BatchNorm.reshapeReading
    rw [if_neg (by simp), rfb_row hS hd]
  have chan : ∀ p : List Nat → ℝ, BatchNorm.reshapeReading (F : Int) (ofFn ch p) (shapeOf ds) = .ok (ofFn ch p) := fun p => by
    unfold BatchNorm.reshapeReading
    rw [if_neg (by cases hS <;> simp), rfb_chan hS hd]
  have hmulc : ∀ p q : List Nat → ℝ, (ofFn ds p).mul (ofFn ch (fun i => q [0, i.getD 1 0])) =
      .ok (ofFn ds (fun i => p i * q [0, i.getD 1 0])) := fun p q => binop_chan _ hS hd p q
  have hmulc' : ∀ p q : List Nat → ℝ, (ofFn ch (fun i => q [0, i.getD 1 0])).mul (ofFn ds p) =
      .ok (ofFn ds (fun i => q [0, i.getD 1 0] * p i)) := fun p q => binop_chan' _ hS hd p q
  have haddc : ∀ p q : List Nat → ℝ, (ofFn ds p).add (ofFn ch (fun i => q [0, i.getD 1 0])) =
      .ok (ofFn ds (fun i => p i + q [0, i.getD 1 0])) := fun p q => binop_chan _ hS hd p q
  obtain ⟨q, hq⟩ : ∃ q : List Nat → ℝ, ∀ c, q [0, c] = (Real.sqrt (featVar ds x c + l.epsilon))⁻¹ :=
    ⟨fun i => (Real.sqrt (featVar ds x (i.getD 1 0) + l.epsilon))⁻¹, fun c => rfl⟩
  unfold BatchNorm.gradsWith
  dsimp only
  rw [ofFn_shape, hget]
  simp only [Except.bind_ok']
  rw [hγ, row]
  simp only [Except.bind_ok']
  rw [mul_same hd]
  simp only [Except.bind_ok']
  rw [hsum]
  simp only [Except.bind_ok']
  rw [hsum]
  simp only [Except.bind_ok']
  rw [hmulc]
  simp only [Except.bind_ok', Tensor.addScalar]
  rw [map_ofFn]
  simp only [Except.bind_ok']
  rw [chan]
  simp only [Except.bind_ok', Tensor.apply, Tensor.reciprocal]
  rw [map_ofFn]
  simp only [Except.bind_ok']
  rw [map_ofFn]
  simp only [Except.bind_ok']
  have hinv : ofFn ch (fun i => if decide (l.recipEps < if MathFn.sqrt (featVar ds x (i.getD 1 0) + l.epsilon) < 0 then
        -MathFn.sqrt (featVar ds x (i.getD 1 0) + l.epsilon) else MathFn.sqrt (featVar ds x (i.getD 1 0) + l.epsilon)) = true
      then 1 / MathFn.sqrt (featVar ds x (i.getD 1 0) + l.epsilon) else 1 / l.recipEps) =
      ofFn ch (fun i => q [0, i.getD 1 0]) := by
    refine ofFn_congr fun i hi => ?_
    have hlt : i.getD 1 0 < F := by
      cases hS with
      | two n => obtain ⟨a, b, rfl, _, hb⟩ := valid2_iff.1 hi; exact hb
      | four n h w => obtain ⟨a, b, y, z, rfl, _, hb, _⟩ := valid4_iff.1 hi; exact hb
    have hs : MathFn.sqrt (featVar ds x (i.getD 1 0) + l.epsilon) = Real.sqrt (featVar ds x (i.getD 1 0) + l.epsilon) := rfl
    rw [hs, if_neg (not_lt.2 (Real.sqrt_nonneg _)), if_pos (decide_eq_true (hre _ hlt))]
    rw [one_div, hq]
  rw [hinv, mul_same hd]
  simp only [Except.bind_ok']
  rw [hsum]
  simp only [Except.bind_ok', ofFn_shape]
  rw [reshapeReading_sums hS hd _ _ (Or.inr rfl)]
  simp only [Except.bind_ok', mulScalar_ofFn]
  rw [mul_same hc]
  simp only [Except.bind_ok']
  rw [mul_same hc]
  simp only [Except.bind_ok']
  rw [mul_same hc]
  simp only [Except.bind_ok']
  rw [chan]
  simp only [Except.bind_ok']
  rw [hmulc]
  simp only [Except.bind_ok', mulScalar_ofFn]
  rw [hsum]
  simp only [Except.bind_ok']
  rw [reshapeReading_sums hS hd _ _ (Or.inl rfl)]
  simp only [Except.bind_ok']
  have e1 : ∀ r : Nat → ℝ, (ofFn ch (fun i => r (i.getD 1 0))).mul (ofFn ds (normalised ds l.epsilon x)) =
      .ok (ofFn ds (fun i => r (i.getD 1 0) * normalised ds l.epsilon x i)) := fun r =>
    binop_chan' _ hS hd _ (fun i => r (i.getD 1 0))
  have e2 : ∀ (p : List Nat → ℝ) (r : Nat → ℝ), (ofFn ds p).add (ofFn ch (fun i => r (i.getD 1 0))) =
      .ok (ofFn ds (fun i => p i + r (i.getD 1 0))) := fun p r => binop_chan _ hS hd _ (fun i => r (i.getD 1 0))
  simp only [List.getD_cons_zero]
  rw [e1 (fun c => featSum ds (fun i => g i * γ [0, i.getD 1 0] * normalised ds l.epsilon x i) c * (-1 / (1 + 1)) * q [0, c] *
    q [0, c] * q [0, c] * (1 + 1))]
  simp only [Except.bind_ok']
  rw [divScalar_ofFn _ _ hN]
  simp only [Except.bind_ok']
  rw [divScalar_ofFn _ _ hN]
  simp only [Except.bind_ok']
  rw [add_same hd]
  simp only [Except.bind_ok']
  rw [e2 _ (fun c => featSum ds (fun i => g i * γ [0, i.getD 1 0] * q [0, i.getD 1 0] * -1) c / (((ds.getD 0 0 : Nat) : Int) : ℝ))]
  simp only [Except.bind_ok']
  refine congrArg (fun t => Except.ok (t, _, _)) (ofFn_congr fun i hi => ?_)
  obtain ⟨c, hc⟩ : ∃ c, c = i.getD 1 0 := ⟨_, rfl⟩
  have hS1 : featSum ds (fun i => g i * γ [0, i.getD 1 0] * normalised ds l.epsilon x i) c =
      featSum ds (fun j => g j * normalised ds l.epsilon x j) c * γ [0, c] := by
    rw [← featSum_scale ds _ (fun c => γ [0, c])]
    refine congrArg (fun f => featSum ds f c) (funext fun j => ?_)
    ring
  have hS2 : featSum ds (fun i => g i * γ [0, i.getD 1 0] * q [0, i.getD 1 0] * -1) c =
      featSum ds g c * (γ [0, c] * q [0, c] * -1) := by
    rw [← featSum_scale ds _ (fun c => γ [0, c] * q [0, c] * -1)]
    refine congrArg (fun f => featSum ds f c) (funext fun j => ?_)
    ring
  unfold bnReturned
  rw [← hc, hS1, hS2, hq]
  have hp : 0 < featVar ds x c + l.epsilon := add_pos_of_nonneg_of_pos (featVar_nonneg ds x c) heps
  have hsq : featVar ds x c + l.epsilon = Real.sqrt (featVar ds x c + l.epsilon) * Real.sqrt (featVar ds x c + l.epsilon) :=
    (Real.mul_self_sqrt hp.le).symm
  have hσ : Real.sqrt (featVar ds x c + l.epsilon) ≠ 0 := (Real.sqrt_pos.2 hp).ne'
  rw [Int.cast_natCast] at hN ⊢
  generalize Real.sqrt (featVar ds x c + l.epsilon) = σ at hsq hσ
  rw [hsq]
  field_simp
  ring

theorem backwardWith_ok (rfb : Tensor ℝ → Shape → Res (Tensor ℝ)) (l : BatchNorm ℝ) (g : Tensor ℝ) {a b c : Tensor ℝ}
    {r : Tensor ℝ × Tensor ℝ × Tensor ℝ} (h1 : l.batchMean = some a) (h2 : l.batchVariance = some b)
    (h3 : l.normalizedInput = some c) (h : l.gradsWith rfb b c g = .ok r) :
    BatchNorm.backwardWith rfb g l = (.ok r.1, { l with gammaGrad := some r.2.1, betaGrad := some r.2.2 }) := by
  obtain ⟨l', hl'⟩ : ∃ l' : BatchNorm ℝ, l' = { l with gammaGrad := some r.2.1, betaGrad := some r.2.2 } := ⟨_, rfl⟩
  rw [← hl']
  unfold BatchNorm.backwardWith
  rw [Mut.get_bind, h1, h2, h3]
  dsimp only
  rw [h, Mut.lift_ok_bind, Mut.modify_bind, hl']
  rfl

theorem backwardWith_error (rfb : Tensor ℝ → Shape → Res (Tensor ℝ)) (l : BatchNorm ℝ) (g : Tensor ℝ) {a b c : Tensor ℝ}
    {e : Err} (h1 : l.batchMean = some a) (h2 : l.batchVariance = some b)
    (h3 : l.normalizedInput = some c) (h : l.gradsWith rfb b c g = .error e) :
    BatchNorm.backwardWith rfb g l = (.error e, l) := by
  unfold BatchNorm.backwardWith
  rw [Mut.get_bind, h1, h2, h3]
  dsimp only
  rw [h, Mut.lift_error_bind]

/-! ## C47 -/

/-- `backward` after a training call, in a build where the reads past the end of a shape return the number of features: the
gradients of the parameters are the feature sums of `g · x̂` and `g`, and the input's is `bnReturned`. -/
theorem C47_benign_returns {F : Nat} {ds ch : List Nat} (hS : BNShape F ds ch) (hd : Dims ds) (l : BatchNorm ℝ) (hl : l.Ready F)
    (γ β x g : List Nat → ℝ) (hγ : l.gamma = ofFn [1, F] γ) (hβ : l.beta = ofFn [1, F] β) (heps : 0 < l.epsilon)
    (hre : ∀ c < F, l.recipEps < Real.sqrt (featVar ds x c + l.epsilon)) :
    ∃ l' l'', BatchNorm.forward true (ofFn ds x) l =
        (.ok (ofFn ds (batchNorm ds l.epsilon (fun c => γ [0, c]) (fun c => β [0, c]) x)), l') ∧
      BatchNorm.backwardReading (F : Int) (ofFn ds g) l' =
        (.ok (ofFn ds (bnReturned ds l.epsilon (fun c => γ [0, c]) x g)), l'') ∧
      l''.gammaGrad = some (ofFn [F] (fun j => featSum ds (fun i => g i * normalised ds l.epsilon x i) (j.getD 0 0))) ∧
      l''.betaGrad = some (ofFn [F] (fun j => featSum ds g (j.getD 0 0))) := by
  obtain ⟨rs, m, v, hR, hr, hm, hv⟩ := hl.running
  obtain ⟨l', hf, hl'⟩ : ∃ l', BatchNorm.forward true (ofFn ds x) l =
      (.ok (ofFn ds (batchNorm ds l.epsilon (fun c => γ [0, c]) (fun c => β [0, c]) x)), l') ∧
      l'.gamma = l.gamma ∧ l'.epsilon = l.epsilon ∧ l'.recipEps = l.recipEps ∧
      l'.batchMean = some (ofFn ch (fun i => featMean ds x (i.getD 1 0))) ∧
      l'.batchVariance = some (ofFn ch (fun i => featVar ds x (i.getD 1 0))) ∧
      l'.normalizedInput = some (ofFn ds (normalised ds l.epsilon x)) :=
    ⟨_, bn_forward_train hS hd hR hr l γ β m v x hγ hβ hm hv, rfl, rfl, rfl, rfl, rfl, rfl⟩
  obtain ⟨h1, h2, h3, h4, h5, h6⟩ := hl'
  have h := bn_backward_reading hS hd l' γ x g (h1.trans hγ) (h2 ▸ heps) (by rw [h2, h3]; exact hre)
  rw [h2] at h
  refine ⟨l', { l' with
    gammaGrad := some (ofFn [F] (fun j => featSum ds (fun i => g i * normalised ds l.epsilon x i) (j.getD 0 0)))
    betaGrad := some (ofFn [F] (fun j => featSum ds g (j.getD 0 0))) }, hf, ?_, rfl, rfl⟩
  exact backwardWith_ok _ l' _ h4 h5 h6 h

theorem reshapeReading_other {F : Nat} {ds ch : List Nat} (hS : BNShape F ds ch) {v : Int} (hv : v ≠ F) (hi : v < 2 ^ 31) :
    ∃ e, e ≠ .ub ∧ ∀ q : List Nat → ℝ, BatchNorm.reshapeReading v (ofFn [F] q) (shapeOf ch) = .error e := by
  have hnew : ∃ pre post : List Int, (pre ++ v :: post).length = ch.length ∧ (∀ d ∈ pre ++ post, d = 1) ∧
      ∀ q : List Nat → ℝ, BatchNorm.reshapeReading v (ofFn [F] q) (shapeOf ch) = (ofFn [F] q).reshaped (pre ++ v :: post) := by
    cases hS with
    | two n => exact ⟨[1], [], rfl, by simp, fun q => rfl⟩
    | four n h w => exact ⟨[1], [1, 1], rfl, by simp, fun q => rfl⟩
  obtain ⟨pre, post, hlen, hone, hq⟩ := hnew
  by_cases h0 : v ≤ 0
  · refine ⟨.invalidArgument, by decide, fun q => ?_⟩
    rw [hq, Tensor.reshaped, make_error (fun h => ?_)]
    · rfl
    · have := h.2 v (by simp)
      omega
  · refine ⟨.runtimeError, by decide, fun q => ?_⟩
    obtain ⟨k, rfl⟩ : ∃ k : Nat, v = k := ⟨v.toNat, by omega⟩
    have hk : k ≠ F := fun h => hv (by rw [h])
    have hpos : 0 < k := by omega
    have hlt : k < 2 ^ 31 := by omega
    cases hS with
    | two n =>
      exact reshaped_mismatch (es := [1, k]) ⟨by simp, by simpa using hpos, by simpa using hlt⟩ (by simpa using hk) q
    | four n h w =>
      exact reshaped_mismatch (es := [1, k, 1, 1]) ⟨by simp, by simpa using hpos, by simpa using hlt⟩ (by simpa using hk) q

theorem bn_grads_other {F : Nat} {ds ch : List Nat} (hS : BNShape F ds ch) (hd : Dims ds) (l : BatchNorm ℝ)
    (γ v n g : List Nat → ℝ) (hγ : l.gamma = ofFn [1, F] γ) {r : Int} {e : Err}
    (hr : ∀ q : List Nat → ℝ, BatchNorm.reshapeReading r (ofFn [F] q) (shapeOf ch) = .error e) :
    l.gradsWith (BatchNorm.reshapeReading r) (ofFn ch v) (ofFn ds n) (ofFn ds g) = .error e := by
  have hoff : off (BatchNorm.axes (shapeOf ds)) ds = [F] := by cases hS <;> rfl
  have hsum : ∀ p : List Nat → ℝ, (ofFn ds p).sumAxes (BatchNorm.axes (shapeOf ds)) = .ok (ofFn [F] (fun j =>
      lsum (((indices ds).filter (fun i => decide (off (BatchNorm.axes (shapeOf ds)) i = j))).map p))) := by
    intro p
    obtain ⟨-, h2, -, -⟩ := hS.axes_ok
    rw [sumAxes_ofFn hd _ h2 (by rw [hoff]; simp), hoff]
  have hget : ∃ b, (shapeOf ds).get 0 = .ok b := by
    cases hS <;> exact ⟨_, rfl⟩
  obtain ⟨b, hb⟩ := hget
  have row : ∀ p : List Nat → ℝ, BatchNorm.reshapeReading r (ofFn [1, F] p) (shapeOf ds) =
      .ok (ofFn ch (fun i => p [0, i.getD 1 0])) := fun p => by
    unfold BatchNorm.reshapeReading
    rw [if_neg (by simp), rfb_row hS hd]
  have chan : ∀ p : List Nat → ℝ, BatchNorm.reshapeReading r (ofFn ch p) (shapeOf ds) = .ok (ofFn ch p) := fun p => by
    unfold BatchNorm.reshapeReading
    rw [if_neg (by cases hS <;> simp), rfb_chan hS hd]
  have hmul : (ofFn ds g).mul (ofFn ch (fun i => γ [0, i.getD 1 0])) =
      .ok (ofFn ds (fun i => g i * γ [0, i.getD 1 0])) := binop_chan _ hS hd g γ
  unfold BatchNorm.gradsWith
  dsimp only
  rw [ofFn_shape, hb]
  simp only [Except.bind_ok']
  rw [hγ, row]
  simp only [Except.bind_ok']
  rw [mul_same hd]
  simp only [Except.bind_ok']
  rw [hsum]
  simp only [Except.bind_ok']
  rw [hsum]
  simp only [Except.bind_ok']
  rw [hmul]
  simp only [Except.bind_ok', Tensor.addScalar]
  rw [map_ofFn]
  simp only [Except.bind_ok']
  rw [chan]
  simp only [Except.bind_ok', Tensor.apply, Tensor.reciprocal]
  rw [map_ofFn]
  simp only [Except.bind_ok']
  rw [map_ofFn]
  simp only [Except.bind_ok']
  rw [mul_same hd]
  simp only [Except.bind_ok']
  rw [hsum]
  simp only [Except.bind_ok', ofFn_shape]
  rw [hr]
  rfl

/-- If the reads return any other number, `backward` throws and leaves the layer as it was. -/
theorem C47_benign_throws {F : Nat} {ds ch : List Nat} (hS : BNShape F ds ch) (hd : Dims ds) (l : BatchNorm ℝ) (hl : l.Ready F)
    (x g : List Nat → ℝ) {v : Int} (hv : v ≠ F) (hi : v < 2 ^ 31) :
    ∃ y l' e, BatchNorm.forward true (ofFn ds x) l = (.ok y, l') ∧ e ≠ .ub ∧
      BatchNorm.backwardReading v (ofFn ds g) l' = (.error e, l') := by
  obtain ⟨γ, hγ⟩ := hl.gamma
  obtain ⟨β, hβ⟩ := hl.beta
  obtain ⟨rs, m, w, hR, hr, hm, hw⟩ := hl.running
  obtain ⟨e, he, hq⟩ := reshapeReading_other hS hv hi
  refine ⟨_, _, e, bn_forward_train hS hd hR hr l γ β m w x hγ hβ hm hw, he, ?_⟩
  exact backwardWith_error _ _ _ rfl rfl rfl (bn_grads_other hS hd _ γ _ _ g hγ hq)

theorem total_feature {F : Nat} {ds : List Nat} (hF : ∀ i, ValidIdx ds i → i.getD 1 0 < F) (p v : List Nat → ℝ) :
    total ds (fun i => p i * v [i.getD 1 0]) = total [F] (fun j => featSum ds p (j.getD 0 0) * v j) := by
  have e : ∀ j, ValidIdx [F] j → featSum ds p (j.getD 0 0) * v j =
      total ds (fun i => if j = [i.getD 1 0] then p i * v j else 0) := by
    intro j hj
    obtain ⟨c, rfl, -⟩ := valid1_iff.1 hj
    rw [featSum_filter, total, List.getD_cons_zero, ← List.sum_map_mul_right]
    refine congrArg List.sum (List.map_congr_left fun i _ => ?_)
    by_cases h : i.getD 1 0 = c
    · rw [if_pos h, if_pos (by rw [h])]
    · rw [if_neg h, if_neg (by intro h'; exact h (List.cons.inj h').1.symm), zero_mul]
  rw [total_congr e, total_comm]
  refine total_congr fun i hi => ?_
  rw [total_single (valid1_iff.2 ⟨_, rfl, hF i hi⟩)]

theorem feature_lt {F : Nat} {ds ch : List Nat} (hS : BNShape F ds ch) (i : List Nat) (hi : ValidIdx ds i) : i.getD 1 0 < F := by
  cases hS with
  | two n => obtain ⟨a, b, rfl, _, hb⟩ := valid2_iff.1 hi; exact hb
  | four n h w => obtain ⟨a, b, y, z, rfl, _, hb, _⟩ := valid4_iff.1 hi; exact hb

/-- The gradients of the parameters that `C47_benign_returns` names are the gradients of the loss. -/
theorem bn_params_gradient {F : Nat} {ds ch : List Nat} (hS : BNShape F ds ch) (eps : ℝ) (γ β x g : List Nat → ℝ) :
    HasGradient [F] (fun γ' => total ds (fun i => g i * batchNorm ds eps (fun c => γ' [c]) (fun c => β [c]) x i)) γ
        (fun j => featSum ds (fun i => g i * normalised ds eps x i) (j.getD 0 0)) ∧
      HasGradient [F] (fun β' => total ds (fun i => g i * batchNorm ds eps (fun c => γ [c]) (fun c => β' [c]) x i)) β
        (fun j => featSum ds g (j.getD 0 0)) := by
  have hval : ∀ i, ValidIdx ds i → ValidIdx [F] [i.getD 1 0] := fun i hi => valid1_iff.2 ⟨_, rfl, feature_lt hS i hi⟩
  constructor
  · intro c v hc
    rw [← total_feature (feature_lt hS)]
    refine hasDerivAt_total (fun i t => g i * batchNorm ds eps (fun k => c t [k]) (fun k => β [k]) x i) _ 0 fun i hi => ?_
    have := (((hc.2 _ (hval i hi)).const_mul (normalised ds eps x i)).add_const (β [i.getD 1 0])).const_mul (g i)
    refine this.congr_deriv ?_
    ring
  · intro c v hc
    rw [← total_feature (feature_lt hS)]
    refine hasDerivAt_total (fun i t => g i * batchNorm ds eps (fun k => γ [k]) (fun k => c t [k]) x i) _ 0 fun i hi => ?_
    exact ((hc.2 _ (hval i hi)).const_add (normalised ds eps x i * γ [i.getD 1 0])).const_mul (g i)

theorem featCount_two {n F c : Nat} (hc : c < F) : ((featureIdx [n, F] c).length : ℝ) = n := by
  have h := featSum_filter [n, F] (fun _ => 1) c
  rw [featSum, List.map_const', List.sum_replicate, nsmul_one] at h
  rw [h]
  change total [n, F] _ = _
  rw [total_cons]
  have : ∀ b, total [F] (fun x => if (b :: x).getD 1 0 = c then (1 : ℝ) else 0) = 1 := by
    intro b
    have := total_single (ds := [F]) (a := [c]) (valid1_iff.2 ⟨c, rfl, hc⟩) (fun _ => 1)
    refine Eq.trans ?_ this
    refine total_congr fun i hi => ?_
    obtain ⟨k, rfl, -⟩ := valid1_iff.1 hi
    simp
  simp only [this]
  simp

theorem featCount_four {n F h w c : Nat} (hc : c < F) : ((featureIdx [n, F, h, w] c).length : ℝ) = n * (h * w) := by
  have h' := featSum_filter [n, F, h, w] (fun _ => 1) c
  rw [featSum, List.map_const', List.sum_replicate, nsmul_one] at h'
  rw [h']
  change total [n, F, h, w] _ = _
  rw [total_cons]
  have : ∀ b, total [F, h, w] (fun x => if (b :: x).getD 1 0 = c then (1 : ℝ) else 0) = h * w := by
    intro b
    rw [total_cons]
    have e : ∀ k, total [h, w] (fun x => if (b :: k :: x).getD 1 0 = c then (1 : ℝ) else 0) = if k = c then (h * w : ℝ) else 0 := by
      intro k
      simp only [List.getD_cons_succ, List.getD_cons_zero]
      split
      · rw [total_cons]
        simp only [total_cons]
        simp [total, indices]
      · exact total_zero _
    simp only [e]
    exact list_sum_single List.nodup_range (List.mem_range.2 hc) (fun _ => (h * w : ℝ))
  simp only [this]
  simp

/-- Batches of vectors: what `backward` returns for the input is the gradient of the loss exactly if, for every feature, its
scale is zero, its variance plus `eps` is one, or the gradient's sum against the normalised input vanishes. -/
theorem bn_input_gradient {n F : Nat} (hd : Dims [n, F]) (eps : ℝ) (heps : 0 < eps) (γ β : Nat → ℝ) (x g : List Nat → ℝ) :
    HasGradient [n, F] (fun x' => total [n, F] (fun i => g i * batchNorm [n, F] eps γ β x' i)) x (bnReturned [n, F] eps γ x g) ↔
      ∀ c < F, γ c = 0 ∨ featVar [n, F] x c + eps = 1 ∨
        featSum [n, F] (fun i => g i * normalised [n, F] eps x i) c = 0 := by
  have hv := batchNorm_vjp [n, F] eps heps γ β x g
  have hn : (n : ℝ) ≠ 0 := by exact_mod_cast (hd.pos n (by simp)).ne'
  have key : ∀ i, ValidIdx [n, F] i → bnReturned [n, F] eps γ x g i - bnGradient [n, F] eps γ x g i =
      γ (i.getD 1 0) * normalised [n, F] eps x i * featSum [n, F] (fun j => g j * normalised [n, F] eps x j) (i.getD 1 0) *
        (featVar [n, F] x (i.getD 1 0) + eps - 1) / (n * (featVar [n, F] x (i.getD 1 0) + eps) *
          Real.sqrt (featVar [n, F] x (i.getD 1 0) + eps)) := by
    intro i hi
    have hlt : i.getD 1 0 < F := feature_lt (.two n) i hi
    have hp : 0 < featVar [n, F] x (i.getD 1 0) + eps := add_pos_of_nonneg_of_pos (featVar_nonneg _ _ _) heps
    have hσ := (Real.sqrt_pos.2 hp).ne'
    unfold bnReturned bnGradient
    have hm : ∀ p, featMean [n, F] p (i.getD 1 0) = featSum [n, F] p (i.getD 1 0) / n := fun p => by
      rw [← featCount_two hlt]; rfl
    rw [hm, hm, List.getD_cons_zero]
    field_simp
    ring
  constructor
  · intro h c hc
    by_contra hcon
    push Not at hcon
    obtain ⟨h1, h2, h3⟩ := hcon
    have hall : ∀ i ∈ featureIdx [n, F] c, g i * normalised [n, F] eps x i = 0 := by
      intro i hi
      have hiv := valid_of_featureIdx hi
      have e := key i hiv
      rw [h.unique hv hiv, sub_self, mem_featureIdx hi] at e
      have hp : 0 < featVar [n, F] x c + eps := add_pos_of_nonneg_of_pos (featVar_nonneg _ _ _) heps
      have hσ := (Real.sqrt_pos.2 hp).ne'
      have e' := e.symm
      rw [div_eq_zero_iff] at e'
      have hden : (n * (featVar [n, F] x c + eps) * Real.sqrt (featVar [n, F] x c + eps) : ℝ) ≠ 0 :=
        mul_ne_zero (mul_ne_zero hn hp.ne') hσ
      have e2 := e'.resolve_right hden
      have e3 := (mul_eq_zero.1 e2).resolve_right (sub_ne_zero.2 h2)
      have e4 := (mul_eq_zero.1 e3).resolve_right h3
      have e5 := (mul_eq_zero.1 e4).resolve_left h1
      rw [e5, mul_zero]
    apply h3
    unfold featSum
    rw [List.map_congr_left hall]
    simp
  · intro h c v hc
    refine (hv c v hc).congr_deriv (total_congr fun i hi => ?_)
    have e := key i hi
    have : bnReturned [n, F] eps γ x g i = bnGradient [n, F] eps γ x g i := by
      rw [← sub_eq_zero, e]
      rcases h _ (feature_lt (.two n) i hi) with h | h | h <;> rw [h] <;> simp
    rw [this]

/-- So it is wrong already for the batch `(-1), (1)` with the gradient `(1), (0)`, whatever `eps > 0` is. -/
theorem bn_input_wrong (eps : ℝ) (heps : 0 < eps) :
    ¬HasGradient [2, 1] (fun x' => total [2, 1] (fun i => (if i = [0, 0] then 1 else 0) *
        batchNorm [2, 1] eps (fun _ => 1) (fun _ => 0) x' i)) (fun i => if i = [0, 0] then -1 else 1)
      (bnReturned [2, 1] eps (fun _ => 1) (fun i => if i = [0, 0] then -1 else 1) (fun i => if i = [0, 0] then 1 else 0)) := by
  rw [bn_input_gradient ⟨by simp, by simp, by decide⟩ eps heps]
  intro h
  have hf : featureIdx [2, 1] 0 = [[0, 0], [1, 0]] := by decide
  have hm : featMean [2, 1] (fun i => if i = [0, 0] then -1 else 1) 0 = 0 := by
    rw [featMean, hf]; norm_num
  have hV : featVar [2, 1] (fun i => if i = [0, 0] then -1 else 1) 0 = 1 := by
    rw [featVar, hm, hf]; norm_num
  have hσ : (0 : ℝ) < Real.sqrt (1 + eps) := Real.sqrt_pos.2 (by linarith)
  rcases h 0 (by norm_num) with h | h | h
  · norm_num at h
  · rw [hV] at h; linarith
  · rw [featSum, hf] at h
    simp [normalised, hm, hV] at h
    exact hσ.ne' h

/-- Batches of images with more than one pixel: for a constant batch and a constant gradient the true gradient is zero, but
`backward` returns `γ/√eps · (1 - h·w)`, because it divides by the number of images instead of the number of averaged values. -/
theorem bn_images_wrong {n F h w : Nat} (hd : Dims [n, F, h, w]) (hF : 0 < F) (hp : 2 ≤ h * w) (eps : ℝ) (heps : 0 < eps)
    (γ β : Nat → ℝ) (hγ : γ 0 ≠ 0) :
    ¬HasGradient [n, F, h, w] (fun x' => total [n, F, h, w] (fun i => 1 * batchNorm [n, F, h, w] eps γ β x' i)) (fun _ => 0)
      (bnReturned [n, F, h, w] eps γ (fun _ => 0) (fun _ => 1)) := by
  intro hg
  have hv := batchNorm_vjp [n, F, h, w] eps heps γ β (fun _ => 0) (fun _ => 1)
  have hn := hd.pos n (by simp)
  have hh := hd.pos h (by simp)
  have hw := hd.pos w (by simp)
  have hi : ValidIdx [n, F, h, w] [0, 0, 0, 0] := valid4_iff.2 ⟨0, 0, 0, 0, rfl, hn, hF, hh, hw⟩
  have e := hg.unique hv hi
  have hc := featCount_four (n := n) (h := h) (w := w) hF
  have hm : featMean [n, F, h, w] (fun _ => 0) 0 = 0 := by simp [featMean]
  have hV : featVar [n, F, h, w] (fun _ => 0) 0 = 0 := by simp [featVar, hm]
  have hS : featSum [n, F, h, w] (fun _ => 1) 0 = n * (h * w) := by
    rw [featSum, List.map_const', List.sum_replicate, nsmul_one, hc]
  have hM : featMean [n, F, h, w] (fun _ => 1) 0 = 1 := by
    change featSum [n, F, h, w] (fun _ => 1) 0 / _ = _
    rw [hS, hc]
    have : (n * (h * w) : ℝ) ≠ 0 := by positivity
    exact div_self this
  have hn' : (n : ℝ) ≠ 0 := by positivity
  have hσ : Real.sqrt eps ≠ 0 := (Real.sqrt_pos.2 heps).ne'
  simp only [bnReturned, bnGradient, normalised, List.getD_cons_succ, List.getD_cons_zero, hm, hV, hS, hM, sub_self, zero_div,
    zero_mul, sub_zero, zero_add, mul_zero] at e
  rw [mul_div_cancel_left₀ _ hn'] at e
  rcases mul_eq_zero.1 e with e | e
  · rcases div_eq_zero_iff.1 e with e | e
    · exact hγ e
    · exact hσ e
  · have : (2 : ℝ) ≤ h * w := by exact_mod_cast hp
    linarith

theorem bn_new_recipEps {F : Int} {eps mom re : ℝ} {l : BatchNorm ℝ} (h : BatchNorm.new F eps mom re = .ok l) : l.recipEps = re := by
  unfold BatchNorm.new at h
  cases hs : Shape.make [1, F] with
  | error e => rw [hs] at h; cases h
  | ok s =>
    rw [hs] at h
    simp only [Except.bind_ok'] at h
    cases h
    rfl

/-! ### The property -/

/-- The loss `∑ gᵢ yᵢ` of a layer's output in training mode, as a function of scales, shifts and input. -/
noncomputable def Spec.bnLoss (ds : List Nat) (eps : ℝ) (g γ β x : List Nat → ℝ) : ℝ :=
  total ds (fun i => g i * batchNorm ds eps (fun c => γ [c]) (fun c => β [c]) x i)

/-- In a build where the reads past the end of a shape return the number of features, the gradients that `backward` stores for the
scales and shifts are the gradients of the loss.  Missing: the reads are undefined behaviour (`C47_refuted`). -/
theorem C47_benign_params_partial {F : Nat} {ds ch : List Nat} (hS : BNShape F ds ch) (hd : Dims ds) (l : BatchNorm ℝ) (hl : l.Ready F)
    (γ β x g : List Nat → ℝ) (hγ : l.gamma = ofFn [1, F] (fun i => γ [i.getD 1 0])) (hβ : l.beta = ofFn [1, F] (fun i => β [i.getD 1 0]))
    (heps : 0 < l.epsilon) (hre : ∀ c < F, l.recipEps < Real.sqrt (featVar ds x c + l.epsilon)) :
    ∃ y l' r l'' p q, BatchNorm.forward true (ofFn ds x) l = (.ok (ofFn ds y), l') ∧ total ds (fun i => g i * y i) = bnLoss ds l.epsilon g γ β x ∧
      BatchNorm.backwardReading (F : Int) (ofFn ds g) l' = (.ok r, l'') ∧
      l''.gammaGrad = some (ofFn [F] p) ∧ HasGradient [F] (fun γ' => bnLoss ds l.epsilon g γ' β x) γ p ∧
      l''.betaGrad = some (ofFn [F] q) ∧ HasGradient [F] (fun β' => bnLoss ds l.epsilon g γ β' x) β q := by
  obtain ⟨l', l'', h1, h2, h3, h4⟩ := C47_benign_returns hS hd l hl _ _ x g hγ hβ heps hre
  obtain ⟨g1, g2⟩ := bn_params_gradient hS l.epsilon γ β x g
  exact ⟨_, l', _, l'', _, _, h1, rfl, h2, h3, g1, h4, g2⟩

/-- The input gradient of a batch of vectors, in such a build: `backward` returns the gradient of the loss exactly if, for every
feature, its scale is zero, its variance plus `eps` is one, or the gradient's sum against the normalised input vanishes. -/
theorem C47_benign_input_partial {n F : Nat} (hd : Dims [n, F]) (l : BatchNorm ℝ) (hl : l.Ready F)
    (γ β x g : List Nat → ℝ) (hγ : l.gamma = ofFn [1, F] (fun i => γ [i.getD 1 0])) (hβ : l.beta = ofFn [1, F] (fun i => β [i.getD 1 0]))
    (heps : 0 < l.epsilon) (hre : ∀ c < F, l.recipEps < Real.sqrt (featVar [n, F] x c + l.epsilon)) :
    ∃ y l' r l'', BatchNorm.forward true (ofFn [n, F] x) l = (.ok (ofFn [n, F] y), l') ∧
      total [n, F] (fun i => g i * y i) = bnLoss [n, F] l.epsilon g γ β x ∧
      BatchNorm.backwardReading (F : Int) (ofFn [n, F] g) l' = (.ok (ofFn [n, F] r), l'') ∧
      (HasGradient [n, F] (bnLoss [n, F] l.epsilon g γ β) x r ↔ ∀ c < F, γ [c] = 0 ∨ featVar [n, F] x c + l.epsilon = 1 ∨
        featSum [n, F] (fun i => g i * normalised [n, F] l.epsilon x i) c = 0) := by
  obtain ⟨l', l'', h1, h2, -, -⟩ := C47_benign_returns (.two n) hd l hl _ _ x g hγ hβ heps hre
  exact ⟨_, l', _, l'', h1, rfl, h2, bn_input_gradient hd l.epsilon heps (fun c => γ [c]) (fun c => β [c]) x g⟩

/-- So, even in such a build, the input gradient is wrong for the batch `(-1), (1)` with the gradient `(1), (0)`, for a new layer
with any `eps > 0`. -/
theorem C47_benign_refuted {eps mom re : ℝ} (heps : 0 < eps) (hre : re < Real.sqrt (1 + eps)) :
    ∃ l y l' r l'', BatchNorm.new 1 eps mom re = .ok l ∧
      BatchNorm.forward true (ofFn [2, 1] (fun i => if i = [0, 0] then -1 else 1)) l = (.ok y, l') ∧
      BatchNorm.backwardReading 1 (ofFn [2, 1] (fun i => if i = [0, 0] then 1 else 0)) l' = (.ok (ofFn [2, 1] r), l'') ∧
      ¬HasGradient [2, 1] (bnLoss [2, 1] eps (fun i => if i = [0, 0] then 1 else 0) (fun _ => 1) (fun _ => 0))
        (fun i => if i = [0, 0] then -1 else 1) r := by
  obtain ⟨l, h1, h2, h3, h4, h5, h6, -⟩ := C45_constructed 1 ⟨by simp, by simp, by decide⟩ eps mom re
  have hf : featureIdx [2, 1] 0 = [[0, 0], [1, 0]] := by decide
  have hm : featMean [2, 1] (fun i => if i = [0, 0] then -1 else 1) 0 = 0 := by
    rw [featMean, hf]; norm_num
  have hV : featVar [2, 1] (fun i => if i = [0, 0] then -1 else 1) 0 = 1 := by
    rw [featVar, hm, hf]; norm_num
  obtain ⟨l', l'', e1, e2, -, -⟩ := C47_benign_returns (.two 2) ⟨by simp, by simp, by decide⟩ l h2 _ _
    (fun i => if i = [0, 0] then -1 else 1) (fun i => if i = [0, 0] then 1 else 0) h5 h6 (by rw [h3]; exact heps) (fun c hc => by
      have h0 : c = 0 := by omega
      subst h0
      rw [bn_new_recipEps h1, h3, hV]
      exact hre)
  refine ⟨l, _, l', _, l'', h1, e1, e2, ?_⟩
  rw [h3]
  exact bn_input_wrong eps heps

/-- Batches of images with more than one pixel, even in such a build: for a new layer, a constant batch and a constant gradient the
true gradient is zero, but `backward` returns `(1 - h·w)/√eps`, because it divides by the number of images instead of the number of
averaged values. -/
theorem C47_benign_images_refuted {n F h w : Nat} (hd : Dims [n, F, h, w]) (hp : 2 ≤ h * w) {eps mom re : ℝ}
    (heps : 0 < eps) (hre : re < Real.sqrt eps) :
    ∃ l y l' r l'', BatchNorm.new (F : Int) eps mom re = .ok l ∧
      BatchNorm.forward true (ofFn [n, F, h, w] (fun _ => 0)) l = (.ok y, l') ∧
      BatchNorm.backwardReading (F : Int) (ofFn [n, F, h, w] (fun _ => 1)) l' = (.ok (ofFn [n, F, h, w] r), l'') ∧
      ¬HasGradient [n, F, h, w] (bnLoss [n, F, h, w] eps (fun _ => 1) (fun _ => 1) (fun _ => 0)) (fun _ => 0) r := by
  have hF := hd.pos F (by simp)
  have hdF : Dims [1, F] := ⟨by simp, by simpa using hF, by
    have hn := hd.pos n (by simp)
    have hh := hd.pos h (by simp)
    have hw := hd.pos w (by simp)
    refine lt_of_le_of_lt ?_ hd.lt
    refine Nat.le_of_dvd (List.prod_pos hd.pos) ?_
    simp only [List.prod_cons, List.prod_nil, one_mul, mul_one]
    exact Dvd.dvd.mul_left (Dvd.intro _ rfl) n⟩
  obtain ⟨l, h1, h2, h3, h4, h5, h6, -⟩ := C45_constructed F hdF eps mom re
  have hV : ∀ c, featVar [n, F, h, w] (fun _ => 0) c = 0 := fun c => by simp [featVar, featMean]
  obtain ⟨l', l'', e1, e2, -, -⟩ := C47_benign_returns (.four n h w) hd l h2 _ _
    (fun _ => 0) (fun _ => 1) h5 h6 (by rw [h3]; exact heps) (fun c hc => by
      rw [bn_new_recipEps h1, h3, hV, zero_add]
      exact hre)
  refine ⟨l, _, l', _, l'', h1, e1, e2, ?_⟩
  rw [h3]
  exact bn_images_wrong hd hF hp eps heps (fun _ => 1) (fun _ => 0) one_ne_zero

/-- A new layer with two features and the default constants meets the hypotheses of `C47_benign_returns` for every batch. -/
example (n : Nat) (hd : Dims [n, 2]) (x g : List Nat → ℝ) : ∃ l l' l'' y r, BatchNorm.new (2 : Int) (1 / 100000) (9 / 10) (1 / 10 ^ 12) = .ok l ∧
    BatchNorm.forward true (ofFn [n, 2] x) l = (.ok y, l') ∧ BatchNorm.backwardReading 2 (ofFn [n, 2] g) l' = (.ok (ofFn [n, 2] r), l'') := by
  obtain ⟨l, h1, h2, h3, -⟩ := C45_constructed 2 ⟨by simp, by simp, by decide⟩ (1 / 100000) (9 / 10) (1 / 10 ^ 12)
  have h5 := bn_new_recipEps h1
  obtain ⟨γ, hγ⟩ := h2.gamma
  obtain ⟨β, hβ⟩ := h2.beta
  obtain ⟨l', l'', e1, e2, -, -⟩ := C47_benign_returns (.two n) hd l h2 γ β x g hγ hβ (by rw [h3]; norm_num) (fun c hc => by
    rw [h3, h5]
    apply Real.lt_sqrt_of_sq_lt
    have := featVar_nonneg [n, 2] x c
    norm_num
    linarith)
  exact ⟨l, l', l'', _, _, h1, e1, e2⟩

/-- A case where the returned input gradient is right: one feature of variance zero and `eps = 1`. -/
example (β : Nat → ℝ) (g : List Nat → ℝ) : HasGradient [2, 1] (fun x' => total [2, 1] (fun i => g i *
    batchNorm [2, 1] 1 (fun _ => 3) β x' i)) (fun _ => 5) (bnReturned [2, 1] 1 (fun _ => 3) (fun _ => 5) g) := by
  rw [bn_input_gradient ⟨by simp, by simp, by decide⟩ 1 one_pos]
  intro c hc
  have h0 : c = 0 := by omega
  subst h0
  have hf : featureIdx [2, 1] 0 = [[0, 0], [1, 0]] := by decide
  have hm : featMean [2, 1] (fun _ => 5) 0 = 5 := by
    rw [featMean, hf]; norm_num
  right; left
  rw [featVar, hm, hf]
  norm_num

end SmartDNN
