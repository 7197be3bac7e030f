import Verif.Proofs.Conv
import Verif.Props.Reductions
import Verif.Spec.RealFns

/-!
# Lemmas about batch normalisation
-/

namespace SmartDNN
open Spec

/-- Input dimensions with `F` features and the dimensions of the per-feature statistics. -/
inductive BNShape (F : Nat) : List Nat → List Nat → Prop
  | two (n : Nat) : BNShape F [n, F] [1, F]
  | four (n h w : Nat) : BNShape F [n, F, h, w] [1, F, 1, 1]

/-- Running statistics have dimensions (1,F), or (1,F,1,F) after training on rank-4 input. -/
inductive RunShape (F : Nat) : List Nat → Prop
  | row : RunShape F [1, F]
  | square : RunShape F [1, F, 1, F]

theorem dimR_cons_lt (ds : List Nat) {i : Nat} (h : ds.length ≤ i) : dimR ds i = 1 := by
  unfold dimR
  rw [List.getD_eq_getElem?_getD, List.getElem?_eq_none (by simpa using h)]
  rfl

section
variable {T : Type} {F : Nat} {ds ch : List Nat}

theorem BNShape.dims (hS : BNShape F ds ch) (hd : Dims ds) : Dims ch := by
  cases hS with
  | two n => exact dims_cons_one (dims_tail hd)
  | four n h w =>
    have hF := hd.pos F (by simp)
    have hn := hd.pos n (by simp)
    have hh := hd.pos h (by simp)
    have hw := hd.pos w (by simp)
    refine ⟨by simp, by simp [hF], lt_of_le_of_lt ?_ hd.lt⟩
    simp only [List.prod_cons, List.prod_nil, mul_one, one_mul]
    exact le_trans (Nat.le_mul_of_pos_right _ (Nat.mul_pos hh hw)) (Nat.le_mul_of_pos_left _ hn)

theorem BNShape.pos (hS : BNShape F ds ch) (hd : Dims ds) : 0 < F := by
  cases hS <;> exact hd.pos F (by simp)

theorem BNShape.row (hS : BNShape F ds ch) (hd : Dims ds) : Dims [1, F] := by
  have hF := hS.pos hd
  have h1 := (hS.dims hd).lt
  refine ⟨by simp, by simp [hF], ?_⟩
  cases hS <;> simpa using h1

/-- Broadcasting per-feature values over an input. -/
theorem binop_chan [Zero T] (op : T → T → T) (hS : BNShape F ds ch) (hd : Dims ds) (f p : List Nat → T) :
    (ofFn ds f).binop op (ofFn ch (fun i => p [0, i.getD 1 0])) =
      .ok (ofFn ds (fun i => op (f i) (p [0, i.getD 1 0]))) := by
  have hF := hS.pos hd
  have hc := hS.dims hd
  cases hS with
  | two n =>
    have hn := hd.pos n (by simp)
    rw [binop_ofFn op hd hc]
    · have hb : bdims [n, F] [1, F] = [n, F] := by
        simp [bdims, dimR, List.range, List.range.loop]
        omega
      rw [hb]
      congr 1
      apply ofFn_congr
      intro idx hv
      obtain ⟨i, j, rfl, hi, hj⟩ := valid2_iff.1 hv
      have e1 : proj [n, F] [i, j] = [i, j] := by
        simp only [proj, List.length_cons, List.length_nil, Nat.sub_self, List.drop_zero, List.zipWith_cons_cons,
          List.zipWith_nil_right]
        congr 1
        · split <;> omega
        · congr 1
          split <;> omega
      rw [e1]
      congr 2
      simp only [proj, List.length_cons, List.length_nil, Nat.sub_self, List.drop_zero, List.zipWith_cons_cons,
          List.zipWith_nil_right, List.getD_cons_zero, List.getD_cons_succ]
      congr 2
      split <;> omega
    · intro i
      rcases i with _ | _ | i
      · left; rfl
      · right; right; rfl
      · left
        rw [dimR_cons_lt _ (by simp), dimR_cons_lt _ (by simp)]
  | four n h w =>
    have hn := hd.pos n (by simp)
    have hh := hd.pos h (by simp)
    have hw := hd.pos w (by simp)
    rw [binop_ofFn op hd hc]
    · have hb : bdims [n, F, h, w] [1, F, 1, 1] = [n, F, h, w] := by
        simp [bdims, dimR, List.range, List.range.loop]
        omega
      rw [hb]
      congr 1
      apply ofFn_congr
      intro idx hv
      obtain ⟨i, j, y, z, rfl, hi, hj, hy, hz⟩ := valid4_iff.1 hv
      have e1 : proj [n, F, h, w] [i, j, y, z] = [i, j, y, z] := by
        simp only [proj, List.length_cons, List.length_nil, Nat.sub_self, List.drop_zero, List.zipWith_cons_cons,
          List.zipWith_nil_right, List.cons.injEq, and_true]
        refine ⟨?_, ?_, ?_, ?_⟩ <;> split <;> omega
      rw [e1]
      congr 2
      simp only [proj, List.length_cons, List.length_nil, Nat.sub_self, List.drop_zero, List.zipWith_cons_cons,
          List.zipWith_nil_right, List.getD_cons_zero, List.getD_cons_succ]
      congr 2
      split <;> omega
    · intro i
      rcases i with _ | _ | _ | _ | i
      · right; right; rfl
      · right; right; rfl
      · left; rfl
      · right; right; rfl
      · left
        rw [dimR_cons_lt _ (by simp), dimR_cons_lt _ (by simp)]

theorem reindex_chan (hF : 0 < F) {idx : List Nat} (hv : ValidIdx [1, F, 1, 1] idx) :
    reindex [1, F, 1, 1] [1, F] idx = [0, idx.getD 1 0] := by
  obtain ⟨i, j, y, z, rfl, hi, hj, hy, hz⟩ := valid4_iff.1 hv
  have hv2 : ValidIdx [1, F] [0, j] := valid2_iff.2 ⟨0, j, rfl, Nat.one_pos, hj⟩
  have h0 : i = 0 := by omega
  have h1 : y = 0 := by omega
  have h2 : z = 0 := by omega
  subst h0 h1 h2
  unfold reindex
  have : ravel [1, F, 1, 1] [0, j, 0, 0] = ravel [1, F] [0, j] := by simp [ravel]
  rw [this, List.getD_eq_getElem?_getD, indices_ravel hv2]
  rfl

/-- `reshapeForBroadcast` of a per-feature row. -/
theorem rfb_row (hS : BNShape F ds ch) (hd : Dims ds) (p : List Nat → T) :
    BatchNorm.reshapeForBroadcast (ofFn [1, F] p) (shapeOf ds) = .ok (ofFn ch (fun i => p [0, i.getD 1 0])) := by
  have hF := hS.pos hd
  have hc := hS.dims hd
  unfold BatchNorm.reshapeForBroadcast
  rw [ofFn_shape, get1]
  simp only [Except.bind_ok']
  cases hS with
  | two n =>
    rw [show wr (List.replicate (shapeOf [n, F]).rank (1 : Int)) 1 (F : Int) = .ok [1, (F : Int)] from rfl]
    simp only [Except.bind_ok']
    rw [if_pos (show (shapeOf [n, F]).rank = 2 from rfl), show wr [1, (F : Int)] 0 1 = .ok [1, (F : Int)] from rfl]
    simp only [Except.bind_ok']
    rw [show [1, (F : Int)] = ints [1, F] from rfl, reshaped_ofFn hc rfl]
    congr 1
    refine (ofFn_congr fun idx hv => ?_ : ofFn [1, F] p = _)
    obtain ⟨i, j, rfl, hi, hj⟩ := valid2_iff.1 hv
    have h0 : i = 0 := by omega
    subst h0
    rfl
  | four n h w =>
    rw [show wr (List.replicate (shapeOf [n, F, h, w]).rank (1 : Int)) 1 (F : Int) = .ok [1, (F : Int), 1, 1] from rfl]
    simp only [Except.bind_ok']
    rw [if_neg (by simp)]
    rw [show [1, (F : Int), 1, 1] = ints [1, F, 1, 1] from rfl, reshaped_ofFn hc (by simp), reinterpret_ofFn (by simp)]
    congr 1
    exact ofFn_congr fun idx hv => by rw [reindex_chan hF hv]

/-- `reshapeForBroadcast` of batch statistics. -/
theorem rfb_chan (hS : BNShape F ds ch) (hd : Dims ds) (p : List Nat → T) :
    BatchNorm.reshapeForBroadcast (ofFn ch p) (shapeOf ds) = .ok (ofFn ch p) := by
  have hF := hS.pos hd
  have hc := hS.dims hd
  unfold BatchNorm.reshapeForBroadcast
  cases hS with
  | two n =>
    rw [ofFn_shape, get1]
    simp only [Except.bind_ok']
    rw [show wr (List.replicate (shapeOf [n, F]).rank (1 : Int)) 1 (F : Int) = .ok [1, (F : Int)] from rfl]
    simp only [Except.bind_ok']
    rw [if_pos (show (shapeOf [n, F]).rank = 2 from rfl), show wr [1, (F : Int)] 0 1 = .ok [1, (F : Int)] from rfl]
    simp only [Except.bind_ok']
    rw [show [1, (F : Int)] = ints [1, F] from rfl, reshaped_ofFn hc rfl]
    rfl
  | four n h w =>
    rw [ofFn_shape, get1]
    simp only [Except.bind_ok']
    rw [show wr (List.replicate (shapeOf [n, F, h, w]).rank (1 : Int)) 1 (F : Int) = .ok [1, (F : Int), 1, 1] from rfl]
    simp only [Except.bind_ok']
    rw [if_neg (by simp)]
    rw [show [1, (F : Int), 1, 1] = ints [1, F, 1, 1] from rfl, reshaped_ofFn hc rfl]
    rfl

end

/-! ### Batch statistics -/

section
variable {F : Nat} {ds ch : List Nat}

theorem off_two (i j : Nat) : off [0] [i, j] = [j] := rfl
theorem off_four (i j y z : Nat) : off [0, 2, 3] [i, j, y, z] = [j] := rfl

theorem BNShape.filter (hS : BNShape F ds ch) {idx : List Nat} (hv : ValidIdx ch idx) :
    (indices ds).filter (fun i => decide (off (BatchNorm.axes (shapeOf ds)) i = off (BatchNorm.axes (shapeOf ds)) idx)) =
      featureIdx ds (idx.getD 1 0) := by
  unfold featureIdx
  apply List.filter_congr
  intro i hi
  have hi := mem_indices.1 hi
  cases hS with
  | two n =>
    obtain ⟨a, c, rfl, _⟩ := valid2_iff.1 hi
    obtain ⟨a', c', rfl, _⟩ := valid2_iff.1 hv
    rw [show BatchNorm.axes (shapeOf [n, F]) = [0] from rfl, off_two, off_two]
    simp
  | four n h w =>
    obtain ⟨a, c, y, z, rfl, _⟩ := valid4_iff.1 hi
    obtain ⟨a', c', y', z', rfl, _⟩ := valid4_iff.1 hv
    rw [show BatchNorm.axes (shapeOf [n, F, h, w]) = [0, 2, 3] from rfl, off_four, off_four]
    simp

theorem BNShape.keep (hS : BNShape F ds ch) : keepDims (BatchNorm.axes (shapeOf ds)) ds = ch := by
  cases hS <;> rfl

theorem BNShape.axes_ok (hS : BNShape F ds ch) : (BatchNorm.axes (shapeOf ds)).Nodup ∧
    (∀ a ∈ BatchNorm.axes (shapeOf ds), a < ds.length) ∧ BatchNorm.axes (shapeOf ds) ≠ [] ∧
    (BatchNorm.axes (shapeOf ds)).length < ds.length := by
  cases hS with
  | two n => exact ⟨by simp [show BatchNorm.axes (shapeOf [n, F]) = [0] from rfl], by simp [show BatchNorm.axes (shapeOf [n, F]) = [0] from rfl], by simp [show BatchNorm.axes (shapeOf [n, F]) = [0] from rfl], by simp [show BatchNorm.axes (shapeOf [n, F]) = [0] from rfl]⟩
  | four n h w =>
    exact ⟨by simp [show BatchNorm.axes (shapeOf [n, F, h, w]) = [0, 2, 3] from rfl], by simp [show BatchNorm.axes (shapeOf [n, F, h, w]) = [0, 2, 3] from rfl], by simp [show BatchNorm.axes (shapeOf [n, F, h, w]) = [0, 2, 3] from rfl], by simp [show BatchNorm.axes (shapeOf [n, F, h, w]) = [0, 2, 3] from rfl]⟩

/-- A position of the statistics is a position of the input. -/
theorem BNShape.valid (hS : BNShape F ds ch) (hd : Dims ds) {idx : List Nat} (hv : ValidIdx ch idx) :
    ∃ i, ValidIdx ds i ∧ i.getD 1 0 = idx.getD 1 0 := by
  cases hS with
  | two n =>
    obtain ⟨a, c, rfl, _, hc⟩ := valid2_iff.1 hv
    exact ⟨[0, c], valid2_iff.2 ⟨0, c, rfl, hd.pos n (by simp), hc⟩, rfl⟩
  | four n h w =>
    obtain ⟨a, c, y, z, rfl, _, hc, _⟩ := valid4_iff.1 hv
    exact ⟨[0, c, 0, 0], valid4_iff.2 ⟨0, c, 0, 0, rfl, hd.pos n (by simp), hc, hd.pos h (by simp), hd.pos w (by simp)⟩, rfl⟩

theorem BNShape.zero_valid (hS : BNShape F ds ch) (hd : Dims ds) {c : Nat} (hc : c < F) :
    ∃ i, ValidIdx ds i ∧ i.getD 1 0 = c := by
  cases hS with
  | two n => exact ⟨[0, c], valid2_iff.2 ⟨0, c, rfl, hd.pos n (by simp), hc⟩, rfl⟩
  | four n h w =>
    exact ⟨[0, c, 0, 0], valid4_iff.2 ⟨0, c, 0, 0, rfl, hd.pos n (by simp), hc, hd.pos h (by simp), hd.pos w (by simp)⟩, rfl⟩

theorem featureIdx_ne {i : List Nat} (hv : ValidIdx ds i) : featureIdx ds (i.getD 1 0) ≠ [] := by
  intro h
  have : i ∈ featureIdx ds (i.getD 1 0) := by
    unfold featureIdx
    rw [List.mem_filter]
    exact ⟨mem_indices.2 hv, by simp⟩
  rw [h] at this
  simp at this

theorem BNShape.count (hS : BNShape F ds ch) (hd : Dims ds) {idx : List Nat} (hv : ValidIdx ch idx) :
    (featureIdx ds (idx.getD 1 0)).length = axesCount (BatchNorm.axes (shapeOf ds)) ds := by
  obtain ⟨i, hi, he⟩ := hS.valid hd hv
  rw [← fibre_count (BatchNorm.axes (shapeOf ds)) hi]
  unfold featureIdx
  congr 1
  apply List.filter_congr
  intro a ha
  have ha := mem_indices.1 ha
  rw [← he]
  cases hS with
  | two n =>
    obtain ⟨a, c, rfl, _⟩ := valid2_iff.1 ha
    obtain ⟨a', c', rfl, _⟩ := valid2_iff.1 hi
    rw [show BatchNorm.axes (shapeOf [n, F]) = [0] from rfl, off_two, off_two]
    simp
  | four n h w =>
    obtain ⟨a, c, y, z, rfl, _⟩ := valid4_iff.1 ha
    obtain ⟨a', c', y', z', rfl, _⟩ := valid4_iff.1 hi
    rw [show BatchNorm.axes (shapeOf [n, F, h, w]) = [0, 2, 3] from rfl, off_four, off_four]
    simp

theorem bn_mean (hS : BNShape F ds ch) (hd : Dims ds) (f : List Nat → ℝ) :
    (ofFn ds f).meanAxes (BatchNorm.axes (shapeOf ds)) = .ok (ofFn ch (fun i => featMean ds f (i.getD 1 0))) := by
  obtain ⟨h1, h2, h3, h4⟩ := hS.axes_ok
  rw [C12_axes ds hd _ h1 h2 h3 h4, hS.keep]
  congr 1
  apply ofFn_congr
  intro idx hv
  rw [hS.filter hv, ← hS.count hd hv]
  rfl

theorem bn_var (hS : BNShape F ds ch) (hd : Dims ds) (f : List Nat → ℝ) :
    (ofFn ds f).varianceAxes (ofFn ch (fun i => featMean ds f (i.getD 1 0))) (BatchNorm.axes (shapeOf ds)) =
      .ok (ofFn ch (fun i => featVar ds f (i.getD 1 0))) := by
  obtain ⟨h1, h2, h3, h4⟩ := hS.axes_ok
  have := C13_variance ds hd _ h1 h2 h4 f (fun i => featMean ds f (i.getD 1 0))
  rw [hS.keep] at this
  rw [this]
  congr 1
  apply ofFn_congr
  intro idx hv
  rw [hS.filter hv, ← hS.count hd hv]
  rfl

/-! ### Normalisation -/

/-- The normalised and scaled value. -/
noncomputable def bnOut (eps : ℝ) (m v γ β : ℝ) (x : ℝ) : ℝ := (x - m) / Real.sqrt (v + eps) * γ + β

theorem bn_normalise (hS : BNShape F ds ch) (hd : Dims ds) (f m v : List Nat → ℝ) (eps : ℝ) :
    BatchNorm.normalise (ofFn ds f) (ofFn ch (fun i => m [0, i.getD 1 0])) (ofFn ch (fun i => v [0, i.getD 1 0])) eps =
      .ok (ofFn ds (fun i => (f i - m [0, i.getD 1 0]) / Real.sqrt (v [0, i.getD 1 0] + eps))) := by
  unfold BatchNorm.normalise Tensor.sub Tensor.addScalar Tensor.apply Tensor.div
  rw [binop_chan _ hS hd f m]
  simp only [Except.bind_ok']
  rw [map_ofFn]
  simp only [Except.bind_ok']
  rw [map_ofFn]
  simp only [Except.bind_ok']
  exact binop_chan (fun a b => a / b) hS hd _ (fun i => Real.sqrt (v [0, i.getD 1 0] + eps))

theorem bn_scaleShift (hS : BNShape F ds ch) (hd : Dims ds) (f g b : List Nat → ℝ) :
    BatchNorm.scaleShift (ofFn ds f) (ofFn ch (fun i => g [0, i.getD 1 0])) (ofFn ch (fun i => b [0, i.getD 1 0])) =
      .ok (ofFn ds (fun i => f i * g [0, i.getD 1 0] + b [0, i.getD 1 0])) := by
  unfold BatchNorm.scaleShift Tensor.mul Tensor.add
  rw [binop_chan _ hS hd f g]
  simp only [Except.bind_ok']
  rw [binop_chan _ hS hd _ b]

/-! ### Running statistics -/

theorem run_compat {rs : List Nat} (hR : RunShape F rs) (hS : BNShape F ds ch) : Compat rs ch := by
  intro i
  cases hR <;> cases hS
  all_goals
    rcases i with _ | _ | _ | _ | i
    · first | (left; rfl) | (right; right; rfl)
    · first | (left; rfl) | (right; right; rfl) | (right; left; rfl)
    · first | (left; rfl) | (right; right; rfl) | (right; left; rfl)
    · first | (left; rfl) | (right; right; rfl) | (right; left; rfl)
    · left
      exact (dimR_cons_lt _ (by simp)).trans (dimR_cons_lt _ (by simp)).symm

theorem bdims_row_two (F : Nat) : bdims [1, F] [1, F] = [1, F] := by
  simp [bdims, dimR, List.range, List.range.loop]

theorem bdims_row_four (hF : 0 < F) : bdims [1, F] [1, F, 1, 1] = [1, F, 1, F] := by
  simp [bdims, dimR, List.range, List.range.loop]
  omega

theorem bdims_square_two (hF : 0 < F) : bdims [1, F, 1, F] [1, F] = [1, F, 1, F] := by
  simp [bdims, dimR, List.range, List.range.loop]
  omega

theorem bdims_square_four (hF : 0 < F) : bdims [1, F, 1, F] [1, F, 1, 1] = [1, F, 1, F] := by
  simp [bdims, dimR, List.range, List.range.loop]
  omega

/-- Dimensions of the running statistics after a training call: `(1,F,1,F)` once a rank-4 batch was seen. -/
theorem run_next {rs : List Nat} (hF : 0 < F) (hR : RunShape F rs) (hS : BNShape F ds ch) :
    RunShape F (bdims rs ch) ∧ (ds.length = 4 ∨ rs = [1, F, 1, F] → bdims rs ch = [1, F, 1, F]) ∧
      (ds.length = 2 ∧ rs = [1, F] → bdims rs ch = [1, F]) := by
  cases hR <;> cases hS
  · rw [bdims_row_two]
    exact ⟨.row, by simp, by simp⟩
  · rw [bdims_row_four hF]
    exact ⟨.square, by simp, by simp⟩
  · rw [bdims_square_two hF]
    exact ⟨.square, by simp, by simp⟩
  · rw [bdims_square_four hF]
    exact ⟨.square, by simp, by simp⟩

theorem bn_blend {rs : List Nat} (hR : RunShape F rs) (hr : Dims rs) (hS : BNShape F ds ch) (hd : Dims ds)
    (mom : ℝ) (p q : List Nat → ℝ) :
    BatchNorm.blend mom (ofFn rs p) (ofFn ch q) =
      .ok (ofFn (bdims rs ch) (fun i => p (proj rs i) * mom + q (proj ch i) * (1 - mom))) := by
  unfold BatchNorm.blend Tensor.add
  rw [mulScalar_ofFn]
  simp only [Except.bind_ok']
  rw [mulScalar_ofFn]
  simp only [Except.bind_ok']
  rw [binop_ofFn _ hr (hS.dims hd) (run_compat hR hS)]

/-- Training-mode forward: output and new state. -/
theorem bn_forward_train {rs : List Nat} (hS : BNShape F ds ch) (hd : Dims ds) (hR : RunShape F rs) (hr : Dims rs)
    (l : BatchNorm ℝ) (γ β m v f : List Nat → ℝ) (hγ : l.gamma = ofFn [1, F] γ) (hβ : l.beta = ofFn [1, F] β)
    (hm : l.runningMean = ofFn rs m) (hv : l.runningVariance = ofFn rs v) :
    BatchNorm.forward true (ofFn ds f) l =
      (.ok (ofFn ds (fun i => bnOut l.epsilon (featMean ds f (i.getD 1 0)) (featVar ds f (i.getD 1 0))
        (γ [0, i.getD 1 0]) (β [0, i.getD 1 0]) (f i))),
       { l with
          batchMean := some (ofFn ch (fun i => featMean ds f (i.getD 1 0)))
          batchVariance := some (ofFn ch (fun i => featVar ds f (i.getD 1 0)))
          normalizedInput := some (ofFn ds (fun i => (f i - featMean ds f (i.getD 1 0)) /
            Real.sqrt (featVar ds f (i.getD 1 0) + l.epsilon)))
          runningMean := ofFn (bdims rs ch) (fun i => m (proj rs i) * l.momentum +
            featMean ds f ((proj ch i).getD 1 0) * (1 - l.momentum))
          runningVariance := ofFn (bdims rs ch) (fun i => v (proj rs i) * l.momentum +
            featVar ds f ((proj ch i).getD 1 0) * (1 - l.momentum)) }) := by
  have hrank : ¬((ofFn ds f).shape.rank ≠ 2 ∧ (ofFn ds f).shape.rank ≠ 4) := by
    cases hS <;> simp
  unfold BatchNorm.forward
  rw [if_neg hrank, if_pos rfl, ofFn_shape, Mut.get_bind, bn_mean hS hd, Mut.lift_ok_bind, Mut.modify_bind, bn_var hS hd,
    Mut.lift_ok_bind, Mut.modify_bind, rfb_chan hS hd, Mut.lift_ok_bind, rfb_chan hS hd, Mut.lift_ok_bind, hγ,
    rfb_row hS hd, Mut.lift_ok_bind, hβ, rfb_row hS hd, Mut.lift_ok_bind]
  have hn : BatchNorm.normalise (ofFn ds f) (ofFn ch (fun i => featMean ds f (i.getD 1 0)))
      (ofFn ch (fun i => featVar ds f (i.getD 1 0))) l.epsilon =
      .ok (ofFn ds (fun i => (f i - featMean ds f (i.getD 1 0)) / Real.sqrt (featVar ds f (i.getD 1 0) + l.epsilon))) :=
    bn_normalise hS hd f (fun i => featMean ds f (i.getD 1 0)) (fun i => featVar ds f (i.getD 1 0)) l.epsilon
  rw [hn, Mut.lift_ok_bind, Mut.modify_bind, bn_scaleShift hS hd, Mut.lift_ok_bind, hm, bn_blend hR hr hS hd,
    Mut.lift_ok_bind, Mut.modify_bind, hv, bn_blend hR hr hS hd, Mut.lift_ok_bind, Mut.modify_bind]
  rfl

/-- Evaluation-mode forward, once the running statistics can be reshaped. -/
theorem bn_forward_eval (hS : BNShape F ds ch) (hd : Dims ds) (l : BatchNorm ℝ) (γ β m v f : List Nat → ℝ)
    (hγ : l.gamma = ofFn [1, F] γ) (hβ : l.beta = ofFn [1, F] β)
    (hm : BatchNorm.reshapeForBroadcast l.runningMean (shapeOf ds) = .ok (ofFn ch (fun i => m [0, i.getD 1 0])))
    (hv : BatchNorm.reshapeForBroadcast l.runningVariance (shapeOf ds) = .ok (ofFn ch (fun i => v [0, i.getD 1 0]))) :
    BatchNorm.forward false (ofFn ds f) l =
      (.ok (ofFn ds (fun i => bnOut l.epsilon (m [0, i.getD 1 0]) (v [0, i.getD 1 0])
        (γ [0, i.getD 1 0]) (β [0, i.getD 1 0]) (f i))), l) := by
  have hrank : ¬((ofFn ds f).shape.rank ≠ 2 ∧ (ofFn ds f).shape.rank ≠ 4) := by
    cases hS <;> simp
  unfold BatchNorm.forward
  rw [if_neg hrank, if_neg (by simp), ofFn_shape, Mut.get_bind, hm, Mut.lift_ok_bind, hv, Mut.lift_ok_bind, hγ,
    rfb_row hS hd, Mut.lift_ok_bind, hβ, rfb_row hS hd, Mut.lift_ok_bind, bn_normalise hS hd f m v, Mut.lift_ok_bind,
    Mut.lift_apply, bn_scaleShift hS hd]
  rfl

theorem reshaped_mismatch {T : Type} {es rs : List Nat} (he : Dims es) (h : es.prod ≠ rs.prod) (p : List Nat → T) :
    (ofFn rs p).reshaped (ints es) = .error .runtimeError := by
  have hlt : ∀ d ∈ es, d < 2 ^ 31 := fun d hd =>
    lt_of_le_of_lt (Nat.le_of_dvd (List.prod_pos he.pos) (List.dvd_prod hd)) he.lt
  unfold Tensor.reshaped
  rw [make_dims he]
  simp only [Except.bind_ok', shapeOf_dims]
  rw [tensor_reshape_eq]
  unfold Shape.reshape Mut.exec
  rw [reshapeM_eq, validate_ints he.ne he.pos]
  simp only
  rw [reshapeSize_ints he.pos hlt, if_pos (lt_trans he.lt (by decide))]
  simp only
  rw [if_neg (by rw [ofFn_shape, shapeOf_size]; exact fun e => h e.symm)]
  rfl

/-- `reshapeForBroadcast` of `(1,F,1,F)` statistics fails for `F ≥ 2`. -/
theorem rfb_square (hS : BNShape F ds ch) (hd : Dims ds) (h2 : 2 ≤ F) (p : List Nat → ℝ) :
    BatchNorm.reshapeForBroadcast (ofFn [1, F, 1, F] p) (shapeOf ds) = .error .runtimeError := by
  have hne : F ≠ F * F := by
    intro h
    have : F * 1 = F * F := by omega
    have := Nat.eq_of_mul_eq_mul_left (by omega) this
    omega
  have hc := hS.dims hd
  unfold BatchNorm.reshapeForBroadcast
  rw [ofFn_shape, get1]
  simp only [Except.bind_ok']
  cases hS with
  | two n =>
    rw [show wr (List.replicate (shapeOf [n, F]).rank (1 : Int)) 1 (F : Int) = .ok [1, (F : Int)] from rfl]
    simp only [Except.bind_ok']
    rw [if_pos (show (shapeOf [n, F]).rank = 2 from rfl), show wr [1, (F : Int)] 0 1 = .ok [1, (F : Int)] from rfl]
    simp only [Except.bind_ok']
    exact reshaped_mismatch hc (by simpa using hne) p
  | four n h w =>
    rw [show wr (List.replicate (shapeOf [n, F, h, w]).rank (1 : Int)) 1 (F : Int) = .ok [1, (F : Int), 1, 1] from rfl]
    simp only [Except.bind_ok']
    rw [if_neg (by simp)]
    exact reshaped_mismatch hc (by simpa using hne) p

end
end SmartDNN
