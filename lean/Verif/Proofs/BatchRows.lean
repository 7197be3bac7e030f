import Verif.Proofs.BatchNorm
import Verif.Props.MaxPool
import Verif.Props.EvalMode

/-!
# The layers in evaluation mode, for every number type

What the loops of the layers compute, in the code's order of evaluation and without any law of arithmetic.
-/

namespace SmartDNN
open Spec

section
variable {T : Type}

/-- The running maximum of one pool window: strict comparison, starting from the initial value. -/
def poolFold [LT T] [DecidableLT T] (p s h w : Nat) (ninf : T) (g : Nat → Nat → T) (oh ow : Nat) : T × Int × Int :=
  ((indices [p, p]).filter fun a => decide (oh * s + a.getD 0 0 < h ∧ ow * s + a.getD 1 0 < w)).foldl
    (fun st a => if st.1 < g (oh * s + a.getD 0 0) (ow * s + a.getD 1 0) then
      (g (oh * s + a.getD 0 0) (ow * s + a.getD 1 0),
        (((oh * s + a.getD 0 0 : Nat) : Int), ((ow * s + a.getD 1 0 : Nat) : Int))) else st) (ninf, (0, 0))

theorem findMax_fold [LT T] [DecidableLT T] {n c h w p s i j oh ow : Nat} (hd : Dims [n, c, h, w]) (f : List Nat → T) (ninf : T)
    (inp : Option (Tensor T)) (hi : i < n) (hj : j < c) :
    (⟨p, s, 0, ninf, inp⟩ : MaxPool T).findMax (ofFn [n, c, h, w] f) i j oh ow =
      .ok (poolFold p s h w ninf (fun y x => f [i, j, y, x]) oh ow) := by
  let cond : List Nat → Bool := fun a => decide (oh * s + a.getD 0 0 < h ∧ ow * s + a.getD 1 0 < w)
  let val : List Nat → T := fun a => f [i, j, oh * s + a.getD 0 0, ow * s + a.getD 1 0]
  let emb : List Nat → Int × Int := fun a => (((oh * s + a.getD 0 0 : Nat) : Int), ((ow * s + a.getD 1 0 : Nat) : Int))
  let L := (indices [p, p]).filter cond
  have key : (⟨p, s, 0, ninf, inp⟩ : MaxPool T).findMax (ofFn [n, c, h, w] f) i j oh ow =
      .ok (L.foldl (fun st a => if st.1 < val a then (val a, emb a) else st) (ninf, (0, 0))) := by
    unfold MaxPool.findMax
    simp only [ofFn_shape, get2, get3, Except.bind_ok', forI_nat, sub_zero]
    have hcast : ∀ a b : Nat, ((oh : Int) * (s : Int) + (b : Int) ≥ (a : Int)) ↔ ¬ (oh * s + b < a) := by
      intro a b; rw [ge_iff_le, not_lt]; norm_cast
    have hcast' : ∀ a b : Nat, ((ow : Int) * (s : Int) + (b : Int) ≥ (a : Int)) ↔ ¬ (ow * s + b < a) := by
      intro a b; rw [ge_iff_le, not_lt]; norm_cast
    have h1 : ∀ (ph : Nat) (st : T × Int × Int), ph < p →
        (if (oh : Int) * (s : Int) + (ph : Int) ≥ (h : Int) then (.ok st : Res (T × Int × Int))
         else forN p st (fun pw st =>
          if (ow : Int) * (s : Int) + (pw : Int) ≥ (w : Int) then .ok st
          else do
            let v ← (ofFn [n, c, h, w] f).at_ [(i : Int), (j : Int), (oh : Int) * s + ph, (ow : Int) * s + pw]
            return if st.1 < v then (v, (oh : Int) * s + ph, (ow : Int) * s + pw) else st)) =
        forN p st (fun pw st => .ok (if cond [ph, pw] then
          (if st.1 < val [ph, pw] then (val [ph, pw], emb [ph, pw]) else st) else st)) := by
      intro ph st hph
      by_cases hh : oh * s + ph < h
      · rw [if_neg (by rw [hcast]; exact fun hn => hn hh)]
        apply forN_congr
        intro pw hpw st
        by_cases hw : ow * s + pw < w
        · rw [if_neg (by rw [hcast']; exact fun hn => hn hw)]
          have hv : ValidIdx [n, c, h, w] [i, j, oh * s + ph, ow * s + pw] :=
            valid4_iff.2 ⟨_, _, _, _, rfl, hi, hj, hh, hw⟩
          have ha := at_ofFn hd f hv
          rw [ints4] at ha
          push_cast at ha
          rw [ha]
          simp only [cond, val, emb, List.getD_cons_zero, List.getD_cons_succ, hh, hw, and_self, decide_true, if_true,
            Except.bind_ok', Except.pure_eq']
          push_cast
          rfl
        · rw [if_pos (by rw [hcast']; exact hw)]
          have : cond [ph, pw] = false := by simp [cond, hw]
          rw [this]
          rfl
      · rw [if_pos (by rw [hcast]; exact hh)]
        rw [forN_congr (g := fun _ st => .ok st)]
        · rw [forN_skip]
        · intro pw _ st
          have : cond [ph, pw] = false := by simp [cond, hh]
          rw [this]
          rfl
    rw [forN_congr (g := fun ph st => forN p st (fun pw st => .ok (if cond [ph, pw] then
          (if st.1 < val [ph, pw] then (val [ph, pw], emb [ph, pw]) else st) else st))) (fun ph hph st => h1 ph st hph)]
    refine (forN_indices2 _ _ _ _).trans ?_
    refine (foldlM_inv (mk := fun st : T × Int × Int => st) (step := fun st a => if cond a then
          (if st.1 < val a then (val a, emb a) else st) else st) (ninf, (0, 0)) ?_).trans ?_
    · intro a ha st
      obtain ⟨y, x, rfl, _, _⟩ := valid2_iff.1 (mem_indices.1 ha)
      rfl
    · simp only [L, List.foldl_filter]
  exact key

theorem pool_forward_fold [Zero T] [LT T] [DecidableLT T] {n c h w p s : Nat} (hd : Dims [n, c, h, w])
    (hdo : Dims [n, c, poolOut p s h, poolOut p s w]) (hs : 0 < s)
    (hph : p ≤ h ∨ p - h < s) (hpw : p ≤ w ∨ p - w < s) (f : List Nat → T) (ninf : T) (inp : Option (Tensor T)) :
    MaxPool.forward (ofFn [n, c, h, w] f) ⟨p, s, 0, ninf, inp⟩ =
        (.ok (ofFn [n, c, poolOut p s h, poolOut p s w] (fun idx => (poolFold p s h w ninf
          (fun y x => f [idx.getD 0 0, idx.getD 1 0, y, x]) (idx.getD 2 0) (idx.getD 3 0)).1)),
         ⟨p, s, 0, ninf, some (ofFn [n, c, h, w] f)⟩) := by
  unfold MaxPool.forward
  rw [if_neg (by simp)]
  simp only [Mut.modify_bind, Mut.get_bind, Mut.lift_apply]
  refine Prod.ext ?_ rfl
  have od : ∀ {q : Nat}, p ≤ q ∨ p - q < s → (⟨p, s, 0, ninf, some (ofFn [n, c, h, w] f)⟩ : MaxPool T).outDim (q : Int) =
      .ok ((poolOut p s q : Nat) : Int) := by
    intro q hq
    unfold MaxPool.outDim poolOut
    rw [if_neg (by simp only; omega)]
    congr 1
    simp only
    by_cases hp : p ≤ q
    · rw [if_pos hp, ← Nat.cast_sub hp, Int.tdiv_eq_ediv_of_nonneg (by omega)]
      push_cast
      rw [Nat.cast_sub hp]
    · rw [if_neg hp]
      have hq' := hq.resolve_left hp
      have : ((q : Int) - (p : Int)).tdiv (s : Int) = 0 := by
        have e : (q : Int) - (p : Int) = -(((p - q : Nat) : Int)) := by omega
        rw [e, Int.neg_tdiv, Int.tdiv_eq_zero_of_lt (by omega) (by omega)]
        rfl
      rw [this]
      rfl
  unfold MaxPool.pool
  simp only [ofFn_shape, get0, get1, get2, get3, Except.bind_ok', od hph, od hpw]
  rw [← ints4, make_dims hdo]
  simp only [Except.bind_ok', forI_nat, zeros_shapeOf]
  refine (forN_indices4 _ _ _ _ _ _).trans ?_
  apply foldlM_fill
  intro idx hv g
  obtain ⟨i, j, oh, ow, rfl, hi, hj, hoh, how⟩ := valid4_iff.1 hv
  simp only [List.getD_cons_zero, List.getD_cons_succ]
  rw [findMax_fold hd f ninf _ hi hj]
  simp only [Except.bind_ok']
  exact setAt_ofFn hdo g hv _

/-- `forward` of the convolution, with the `float` accumulator. -/
theorem conv_correlate_fold [Zero T] [Add T] [Mul T] [MathFn T] {n oc ic h w kh kw : Nat}
    (hd : Dims [n, ic, h, w]) (hdk : Dims [oc, ic, kh, kw]) (hdb : Dims [oc, 1])
    (hk : kh ≤ h) (hkw : kw ≤ w) (ho : n * oc * h * w < 2 ^ 31) (k b x : List Nat → T) (l : Conv T)
    (h1 : l.outputChannels = oc) (h2 : l.kernelHeight = kh) (h3 : l.kernelWidth = kw)
    (h4 : l.weights = ofFn [oc, ic, kh, kw] k) (h5 : l.biases = ofFn [oc, 1] b) :
    l.correlate (ofFn [n, ic, h, w] x) = .ok (ofFn [n, oc, h - kh + 1, w - kw + 1] (fun idx =>
      MathFn.toFloat ((indices [kh, kw]).foldl (fun s a => MathFn.toFloat (s +
        x [idx.getD 0 0, 0, idx.getD 2 0 + a.getD 0 0, idx.getD 3 0 + a.getD 1 0] *
        k [idx.getD 1 0, 0, a.getD 0 0, a.getD 1 0])) 0 + b [idx.getD 1 0, 0]))) := by
  have hic := hd.pos ic (by simp)
  have hoc := hdk.pos oc (by simp)
  have hdo := dims_conv hd hk hkw ho hoc (hdk.pos kh (by simp)) (hdk.pos kw (by simp))
  unfold Conv.correlate
  simp only [ofFn_shape, get0, get2, get3, Except.bind_ok', h1, h2, h3]
  have e1 : (h : Int) - (kh : Int) + 1 = ((h - kh + 1 : Nat) : Int) := by omega
  have e2 : (w : Int) - (kw : Int) + 1 = ((w - kw + 1 : Nat) : Int) := by omega
  rw [e1, e2, ← ints4, make_dims hdo]
  simp only [Except.bind_ok', forI_nat, zeros_shapeOf]
  refine (forN_indices4 _ _ _ _ _ _).trans ?_
  apply foldlM_fill
  intro idx hv g
  obtain ⟨i, j, y, z, rfl, hi, hj, hy, hz⟩ := valid4_iff.1 hv
  simp only [List.getD_cons_zero, List.getD_cons_succ]
  have hsum : forN kh (0 : T) (fun u s => forN kw s (fun v s => do
      let xv ← (ofFn [n, ic, h, w] x).at_ [(i : Int), 0, (y : Int) + (u : Int), (z : Int) + (v : Int)]
      let wv ← l.weights.at_ [(j : Int), 0, (u : Int), (v : Int)]
      return MathFn.toFloat (s + xv * wv))) =
      .ok ((indices [kh, kw]).foldl (fun s a => MathFn.toFloat (s + x [i, 0, y + a.getD 0 0, z + a.getD 1 0] * k [j, 0, a.getD 0 0, a.getD 1 0])) 0) := by
    refine (forN_indices2 _ _ _ _).trans ?_
    refine (foldlM_inv (mk := fun s : T => s)
      (step := fun s a => MathFn.toFloat (s + x [i, 0, y + a.getD 0 0, z + a.getD 1 0] * k [j, 0, a.getD 0 0, a.getD 1 0])) 0 ?_).trans ?_
    · intro a ha s
      obtain ⟨u, v, rfl, hu, hv'⟩ := valid2_iff.1 (mem_indices.1 ha)
      simp only [List.getD_cons_zero, List.getD_cons_succ]
      have a1 := at_ofFn hd x (valid4_iff.2 ⟨i, 0, y + u, z + v, rfl, hi, hic, by omega, by omega⟩)
      have a2 := at_ofFn hdk k (valid4_iff.2 ⟨j, 0, u, v, rfl, hj, hic, hu, hv'⟩)
      rw [ints4] at a1 a2
      push_cast at a1 a2
      rw [a1, h4, a2]
      simp only [Except.bind_ok', Except.pure_eq']
    · rfl
  rw [hsum]
  simp only [Except.bind_ok']
  have a3 := at_ofFn hdb b (valid2_iff.2 ⟨j, 0, rfl, hj, Nat.one_pos⟩)
  rw [ints2] at a3
  push_cast at a3
  rw [h5, a3]
  simp only [Except.bind_ok']
  rw [← ints4, setAt_ofFn hdo g hv]

/-- Evaluation-mode batch normalisation. -/
theorem bn_eval_fold [Zero T] [One T] [Add T] [Sub T] [Mul T] [Div T] [Neg T] [NatCast T] [IntCast T] [DecidableEq T]
    [LT T] [DecidableLT T] [MathFn T] {F : Nat} {ds ch : List Nat} (hS : BNShape F ds ch) (hd : Dims ds) (l : BatchNorm T)
    (γ β m v f : List Nat → T) (hγ : l.gamma = ofFn [1, F] γ) (hβ : l.beta = ofFn [1, F] β)
    (hm : l.runningMean = ofFn [1, F] m) (hv : l.runningVariance = ofFn [1, F] v) :
    BatchNorm.forward false (ofFn ds f) l =
      (.ok (ofFn ds (fun i => (f i - m [0, i.getD 1 0]) / MathFn.sqrt (v [0, i.getD 1 0] + l.epsilon) *
        γ [0, i.getD 1 0] + β [0, i.getD 1 0])), l) := by
  have hrank : ¬((ofFn ds f).shape.rank ≠ 2 ∧ (ofFn ds f).shape.rank ≠ 4) := by
    cases hS <;> simp
  unfold BatchNorm.forward
  rw [if_neg hrank, if_neg (by simp), ofFn_shape, Mut.get_bind, hm, rfb_row hS hd, Mut.lift_ok_bind, hv, rfb_row hS hd,
    Mut.lift_ok_bind, hγ, rfb_row hS hd, Mut.lift_ok_bind, hβ, rfb_row hS hd, Mut.lift_ok_bind]
  have hn : BatchNorm.normalise (ofFn ds f) (ofFn ch (fun i => m [0, i.getD 1 0])) (ofFn ch (fun i => v [0, i.getD 1 0]))
      l.epsilon = .ok (ofFn ds (fun i => (f i - m [0, i.getD 1 0]) / MathFn.sqrt (v [0, i.getD 1 0] + l.epsilon))) := by
    unfold BatchNorm.normalise Tensor.sub Tensor.addScalar Tensor.apply Tensor.div
    rw [binop_chan _ hS hd f m]
    simp only [Except.bind_ok']
    rw [map_ofFn]
    simp only [Except.bind_ok']
    rw [map_ofFn]
    simp only [Except.bind_ok']
    exact binop_chan (fun a b => a / b) hS hd _ (fun i => MathFn.sqrt (v [0, i.getD 1 0] + l.epsilon))
  rw [hn, Mut.lift_ok_bind, Mut.lift_apply]
  unfold BatchNorm.scaleShift Tensor.mul Tensor.add
  rw [binop_chan _ hS hd _ γ]
  simp only [Except.bind_ok']
  rw [binop_chan _ hS hd _ β]

end
end SmartDNN
