import Verif.Props.Frozen
import Verif.Props.Typed

/-!
# Parameters at given positions with a gradient that is always zero (for C113; `Proofs/Frozen.lean` for arbitrary sets of positions)
-/

namespace SmartDNN
open Spec

/-- At the positions in `S` the two buffers hold the same elements. -/
def Spec.SameOn (S : Nat → Prop) (d d' : List ℝ) : Prop := ∀ j, S j → d'[j]? = d[j]?

/-- At the positions in `S` the buffer holds zeros. -/
def Spec.ZeroOn (S : Nat → Prop) (d : List ℝ) : Prop := ∀ j, S j → d.getD j 0 = 0

theorem Spec.SameOn.trans {S : Nat → Prop} {a b c : List ℝ} (h1 : SameOn S a b) (h2 : SameOn S b c) : SameOn S a c :=
  fun j hj => (h2 j hj).trans (h1 j hj)

theorem zeroOn_some {S : Nat → Prop} {j : Nat} {d : List ℝ} {a : ℝ} (h : ZeroOn S d) (hj : S j) (e : d[j]? = some a) : a = 0 := by
  have := h j hj
  rw [List.getD_eq_getElem?_getD, e] at this
  exact this

theorem sameOn_set {S : Nat → Prop} {j : Nat} {d : List ℝ} {t t' : Tensor ℝ} {v : ℝ} (hs : SameOn S d t.data) (h : t.set j v = .ok t')
    (hv : S j → t.data[j]? = some v) : SameOn S d t'.data := by
  intro i hi
  rw [(set_nat_data h).1, ← hs i hi]
  by_cases e : j = i
  · subst e
    rw [hv hi]
    obtain ⟨hl, _⟩ := List.getElem?_eq_some_iff.1 (hv hi)
    rw [List.getElem?_set_self hl]
  · rw [List.getElem?_set_ne e]

theorem zeroOn_set {S : Nat → Prop} {j : Nat} {t t' : Tensor ℝ} {v : ℝ} (hs : ZeroOn S t.data) (h : t.set j v = .ok t')
    (hv : S j → v = 0) : ZeroOn S t'.data := by
  intro i hi
  rw [(set_nat_data h).1]
  by_cases e : j = i
  · subst e
    by_cases hl : j < t.data.length
    · rw [List.getD_eq_getElem?_getD, List.getElem?_set_self hl, hv hi]
      rfl
    · rw [List.set_eq_of_length_le (by omega)]
      exact hs j hi
  · rw [List.getD_eq_getElem?_getD, List.getElem?_set_ne e, ← List.getD_eq_getElem?_getD]
    exact hs i hi

theorem zeroOn_full (S : Nat → Prop) (s : Shape) : ZeroOn S (Tensor.full s (0 : ℝ)).data := by
  intro j _
  unfold Tensor.full
  rw [List.getD_eq_getElem?_getD, List.getElem?_replicate]
  split <;> rfl

/-! ### The optimizers -/

section
variable {K : Type} [DecidableEq K]

/-- The optimizer neither decays nor regularises weights, and the velocity (Adam: first moment) that it remembers for the tensor at
`k`, if any, is zero at the positions in `S`. -/
def Spec.QuietOn (opt : Optimizer K ℝ) (k : K) (S : Nat → Prop) : Prop :=
  match opt with
  | .sgd o => o.opts.weightDecay = 0 ∧ ∀ t, o.momentumBuffers k = some t → ZeroOn S t.data
  | .rmsprop o => o.opts.weightDecay = 0 ∧ ∀ t, o.velocityBuffers k = some t → ZeroOn S t.data
  | .adam o => (o.opts.l1Strength ≤ 0 ∧ o.opts.l2Strength ≤ 0) ∧ ∀ t, o.m k = some t → ZeroOn S t.data

theorem lookup_zeroOn {mp : TMap K ℝ} {k : K} {S : Nat → Prop} (h : ∀ t, mp k = some t → ZeroOn S t.data) (s : Shape) :
    ZeroOn S (lookupOrZero mp k s).data := by
  unfold lookupOrZero
  cases e : mp k with
  | none => exact zeroOn_full S s
  | some t => exact h t e

theorem sgd_loop_frozenOn {o : SGDOptions ℝ} {w b g w' b' : Tensor ℝ} {lr : ℝ} {S : Nat → Prop} (h : SGD.loop o w b g lr = .ok (w', b'))
    (hd : o.weightDecay = 0) (hb : ZeroOn S b.data) (hg : ZeroOn S g.data) : SameOn S w.data w'.data ∧ ZeroOn S b'.data := by
  refine forN_post (fun s : Tensor ℝ × Tensor ℝ => SameOn S w.data s.1.data ∧ ZeroOn S s.2.data) ?_ ⟨fun _ _ => rfl, hb⟩ h
  intro j s s' ⟨h1, h2⟩ hj
  obtain ⟨a1, e1, hj⟩ := bind_ok hj
  obtain ⟨a2, e2, hj⟩ := bind_ok hj
  have e1 := rd_nat_some e1
  have e2 := rd_nat_some e2
  simp only [hd, ne_eq, not_true_eq_false, if_false] at hj
  by_cases hm : o.momentum ≠ 0
  · rw [if_pos hm] at hj
    obtain ⟨a3, e3, hj⟩ := bind_ok hj
    have e3 := rd_nat_some e3
    obtain ⟨a4, h4, hj⟩ := bind_ok hj
    obtain ⟨a5, h5, hj⟩ := bind_ok hj
    cases hj
    refine ⟨sameOn_set h1 h5 fun hmj => ?_, zeroOn_set h2 h4 fun hmj => ?_⟩
    · rw [zeroOn_some hg hmj e1, zeroOn_some h2 hmj e3, e2]
      congr 1
      split <;> ring
    · rw [zeroOn_some hg hmj e1, zeroOn_some h2 hmj e3]
      ring
  · rw [if_neg hm] at hj
    obtain ⟨a5, h5, hj⟩ := bind_ok hj
    cases hj
    refine ⟨sameOn_set h1 h5 fun hmj => ?_, h2⟩
    rw [zeroOn_some hg hmj e1, e2]
    congr 1
    ring

theorem rms_loop_frozenOn {o : RMSPropOptions ℝ} {g : Tensor ℝ} {s s' : RMSState ℝ} {lr : ℝ} {S : Nat → Prop}
    (h : RMSProp.loop o s g lr = .ok s') (hd : o.weightDecay = 0) (hb : ZeroOn S s.vel.data) (hg : ZeroOn S g.data) :
    SameOn S s.weight.data s'.weight.data ∧ ZeroOn S s'.vel.data := by
  refine forN_post (fun r : RMSState ℝ => SameOn S s.weight.data r.weight.data ∧ ZeroOn S r.vel.data) ?_
    ⟨fun _ _ => rfl, hb⟩ h
  intro j r r' ⟨h1, h2⟩ hj
  obtain ⟨a1, e1, hj⟩ := bind_ok hj
  obtain ⟨a2, e2, hj⟩ := bind_ok hj
  have e1 := rd_nat_some e1
  have e2 := rd_nat_some e2
  simp only [hd, ne_eq, not_true_eq_false, if_false] at hj
  obtain ⟨a3, -, hj⟩ := bind_ok hj
  obtain ⟨a4, -, hj⟩ := bind_ok hj
  obtain ⟨⟨a5, d⟩, h5, hj⟩ := bind_ok hj
  have e5 : a5.weight = r.weight ∧ a5.vel = r.vel := by
    by_cases hc : o.centered
    · rw [if_pos hc] at h5
      obtain ⟨b1, -, h5⟩ := bind_ok h5
      obtain ⟨b2, -, h5⟩ := bind_ok h5
      cases h5
      exact ⟨rfl, rfl⟩
    · rw [if_neg hc] at h5
      cases h5
      exact ⟨rfl, rfl⟩
  rw [← e5.1] at h1 e2
  rw [← e5.2] at h2
  by_cases hm : 0 < o.momentum
  · simp only [if_pos hm] at hj
    obtain ⟨b1, e6, hj⟩ := bind_ok hj
    have e6 := rd_nat_some e6
    obtain ⟨b2, h7, hj⟩ := bind_ok hj
    obtain ⟨b3, h3, hj⟩ := bind_ok hj
    cases hj
    refine ⟨sameOn_set h1 h3 fun hmj => ?_, zeroOn_set h2 h7 fun hmj => ?_⟩
    · rw [zeroOn_some hg hmj e1, zeroOn_some h2 hmj e6, e2]
      simp
    · rw [zeroOn_some hg hmj e1, zeroOn_some h2 hmj e6]
      simp
  · simp only [if_neg hm] at hj
    obtain ⟨b3, h3, hj⟩ := bind_ok hj
    cases hj
    refine ⟨sameOn_set h1 h3 fun hmj => ?_, h2⟩
    rw [zeroOn_some hg hmj e1, e2]
    simp

theorem adam_loop_frozenOn {o : AdamOptions ℝ} {lr : ℝ} {it : Nat} {S : Nat → Prop} {g : Tensor ℝ} {s s' : Tensor ℝ × Tensor ℝ × Tensor ℝ}
    (h : Adam.loop o lr it s g = .ok s') (h1 : o.l1Strength ≤ 0) (h2 : o.l2Strength ≤ 0) (hb : ZeroOn S s.2.1.data)
    (hg : ZeroOn S g.data) : SameOn S s.1.data s'.1.data ∧ ZeroOn S s'.2.1.data := by
  refine forN_post (fun r : Tensor ℝ × Tensor ℝ × Tensor ℝ => SameOn S s.1.data r.1.data ∧ ZeroOn S r.2.1.data) ?_
    ⟨fun _ _ => rfl, hb⟩ h
  intro j r r' ⟨k1, k2⟩ hj
  obtain ⟨a1, e1, hj⟩ := bind_ok hj
  obtain ⟨a2, e2, hj⟩ := bind_ok hj
  obtain ⟨a3, e3, hj⟩ := bind_ok hj
  have e1 := rd_nat_some e1
  have e2 := rd_nat_some e2
  have e3 := rd_nat_some e3
  obtain ⟨a4, -, hj⟩ := bind_ok hj
  obtain ⟨a5, h5, hj⟩ := bind_ok hj
  obtain ⟨a6, -, hj⟩ := bind_ok hj
  obtain ⟨a7, h7, hj⟩ := bind_ok hj
  cases hj
  refine ⟨sameOn_set k1 h7 fun hmj => ?_, zeroOn_set k2 h5 fun hmj => ?_⟩
  · rw [zeroOn_some hg hmj e2, zeroOn_some k2 hmj e3, e1]
    unfold Adam.updateParameter
    simp [not_lt.2 h1, not_lt.2 h2]
  · rw [zeroOn_some hg hmj e2, zeroOn_some k2 hmj e3]
    unfold Adam.updateParameter
    simp

/-- One tensor update: what is zero stays zero, and weights without gradient and velocity stay as they are. -/
theorem stepPair_frozenOn {r : ℝ} {w w' : World K ℝ} {p : K × Tensor ℝ} (h : stepPair r w p = .ok w') (k : K) (S : Nat → Prop)
    (hq : QuietOn w.opt k S) (hg : p.1 = k → ZeroOn S p.2.data) : QuietOn w'.opt k S ∧ SameOn S (w.mem k).data (w'.mem k).data := by
  obtain ⟨mem, o⟩ := w
  obtain ⟨k', g⟩ := p
  cases o with
  | sgd o =>
    obtain ⟨a, ha, h⟩ := bind_ok h
    cases h
    obtain ⟨b, hb, ha⟩ := bind_ok ha
    cases ha
    by_cases hk : k' = k
    · subst hk
      obtain ⟨f1, f2⟩ := sgd_loop_frozenOn hb hq.1 (lookup_zeroOn hq.2 _) (hg rfl)
      refine ⟨⟨hq.1, fun t ht => ?_⟩, ?_⟩
      · simp only [assign_key, Option.some.injEq] at ht
        exact ht ▸ f2
      · simp only [assign_key]
        exact f1
    · refine ⟨⟨hq.1, fun t ht => ?_⟩, ?_⟩
      · simp only [assign_ne_key (Ne.symm hk)] at ht
        exact hq.2 t ht
      · simp only [assign_ne_key (Ne.symm hk)]
        exact fun _ _ => rfl
  | rmsprop o =>
    obtain ⟨a, ha, h⟩ := bind_ok h
    cases h
    obtain ⟨b, hb, ha⟩ := bind_ok ha
    cases ha
    by_cases hk : k' = k
    · subst hk
      obtain ⟨f1, f2⟩ := rms_loop_frozenOn hb hq.1 (lookup_zeroOn hq.2 _) (hg rfl)
      refine ⟨⟨hq.1, fun t ht => ?_⟩, ?_⟩
      · dsimp only at ht
        by_cases hm : 0 < o.opts.momentum
        · rw [if_pos hm, assign_key, Option.some.injEq] at ht
          exact ht ▸ f2
        · rw [if_neg hm] at ht
          exact hq.2 t ht
      · simp only [assign_key]
        exact f1
    · refine ⟨⟨hq.1, fun t ht => ?_⟩, ?_⟩
      · dsimp only at ht
        by_cases hm : 0 < o.opts.momentum
        · rw [if_pos hm, assign_ne_key (Ne.symm hk)] at ht
          exact hq.2 t ht
        · rw [if_neg hm] at ht
          exact hq.2 t ht
      · simp only [assign_ne_key (Ne.symm hk)]
        exact fun _ _ => rfl
  | adam o =>
    obtain ⟨a, ha, h⟩ := bind_ok h
    cases h
    obtain ⟨b, hb, ha⟩ := bind_ok ha
    cases ha
    by_cases hk : k' = k
    · subst hk
      obtain ⟨f1, f2⟩ := adam_loop_frozenOn hb hq.1.1 hq.1.2 (lookup_zeroOn hq.2 _) (hg rfl)
      refine ⟨⟨hq.1, fun t ht => ?_⟩, ?_⟩
      · simp only [assign_key, Option.some.injEq] at ht
        exact ht ▸ f2
      · simp only [assign_key]
        exact f1
    · refine ⟨⟨hq.1, fun t ht => ?_⟩, ?_⟩
      · simp only [assign_ne_key (Ne.symm hk)] at ht
        exact hq.2 t ht
      · simp only [assign_ne_key (Ne.symm hk)]
        exact fun _ _ => rfl

theorem updateTensors_frozenOn {r : ℝ} (k : K) (S : Nat → Prop) (ps : List (K × Tensor ℝ)) : ∀ {w w' : World K ℝ},
    w.updateTensors r ps = .ok w' → QuietOn w.opt k S → (∀ p ∈ ps, p.1 = k → ZeroOn S p.2.data) →
    QuietOn w'.opt k S ∧ SameOn S (w.mem k).data (w'.mem k).data := by
  induction ps with
  | nil => intro w w' h hq _; cases h; exact ⟨hq, fun _ _ => rfl⟩
  | cons p ps ih =>
    intro w w' h hq hz
    rw [updateTensors_eq, List.foldlM_cons] at h
    obtain ⟨a, ha, h⟩ := bind_ok h
    obtain ⟨q1, s1⟩ := stepPair_frozenOn ha k S hq (hz p (by simp))
    obtain ⟨q2, s2⟩ := ih h q1 fun p hp => hz p (by simp [hp])
    exact ⟨q2, s1.trans s2⟩

theorem begin_quietOn {w : World K ℝ} {r : ℝ} {k : K} {S : Nat → Prop} (h : QuietOn w.opt k S) : QuietOn (w.begin r).opt k S := by
  obtain ⟨mem, o⟩ := w
  cases o <;> exact h

theorem optimizeM_frozenOn (c : Call K ℝ) (w : World K ℝ) (k : K) (S : Nat → Prop) (hq : QuietOn w.opt k S)
    (hz : ∀ p ∈ c.weights.zip c.gradients, p.1 = k → ZeroOn S p.2.data) :
    QuietOn (World.optimizeM c w).2.opt k S ∧ SameOn S (w.mem k).data ((World.optimizeM c w).2.mem k).data := by
  unfold World.optimizeM
  by_cases h : c.weights.length ≠ c.gradients.length
  · rw [if_pos h]; exact ⟨hq, fun _ _ => rfl⟩
  · rw [if_neg h]
    rcases hu : (w.begin c.lr).updateTensors c.lr (c.weights.zip c.gradients) with e | w'
    · exact ⟨hq, fun _ _ => rfl⟩
    · have := updateTensors_frozenOn k S _ hu (begin_quietOn hq) hz
      rw [begin_mem'] at this
      exact this

/-- Updating the two parameters at `k0`, `k1` does not disturb what is remembered for other addresses. -/
theorem optimizePair_otherOn {k0 k1 k : K} {S : Nat → Prop} (h0 : k ≠ k0) (h1 : k ≠ k1) (opt : Optimizer K ℝ) (p0 p1 g0 g1 : Tensor ℝ)
    (hq : QuietOn opt k S) : QuietOn (Layer.optimizePair k0 k1 opt p0 p1 g0 g1).2.2.2 k S := by
  refine (optimizeM_frozenOn ⟨[k0, k1], [g0, g1], -1⟩ (⟨fun k => if k = k0 then p0 else p1, opt⟩ : World K ℝ) k S hq ?_).1
  intro p hp he
  simp only [List.zip_cons_cons, List.zip_nil_right, List.mem_cons, List.not_mem_nil, or_false] at hp
  rcases hp with rfl | rfl
  · exact (h0 he.symm).elim
  · exact (h1 he.symm).elim

theorem optimizePair_frozenOn {k0 k1 : K} (hk : k0 ≠ k1) {S0 S1 : Nat → Prop} (opt : Optimizer K ℝ) (p0 p1 g0 g1 : Tensor ℝ)
    (hq0 : QuietOn opt k0 S0) (hq1 : QuietOn opt k1 S1) (hg0 : ZeroOn S0 g0.data) (hg1 : ZeroOn S1 g1.data) :
    QuietOn (Layer.optimizePair k0 k1 opt p0 p1 g0 g1).2.2.2 k0 S0 ∧ QuietOn (Layer.optimizePair k0 k1 opt p0 p1 g0 g1).2.2.2 k1 S1 ∧
    SameOn S0 p0.data (Layer.optimizePair k0 k1 opt p0 p1 g0 g1).2.1.data ∧
    SameOn S1 p1.data (Layer.optimizePair k0 k1 opt p0 p1 g0 g1).2.2.1.data := by
  have h0 := optimizeM_frozenOn ⟨[k0, k1], [g0, g1], -1⟩ (⟨fun k => if k = k0 then p0 else p1, opt⟩ : World K ℝ) k0 S0 hq0 (by
    intro p hp he
    simp only [List.zip_cons_cons, List.zip_nil_right, List.mem_cons, List.not_mem_nil, or_false] at hp
    rcases hp with rfl | rfl
    · exact hg0
    · exact (hk he.symm).elim)
  have h1 := optimizeM_frozenOn ⟨[k0, k1], [g0, g1], -1⟩ (⟨fun k => if k = k0 then p0 else p1, opt⟩ : World K ℝ) k1 S1 hq1 (by
    intro p hp he
    simp only [List.zip_cons_cons, List.zip_nil_right, List.mem_cons, List.not_mem_nil, or_false] at hp
    rcases hp with rfl | rfl
    · exact (hk he).elim
    · exact hg1)
  refine ⟨h0.1, h1.1, ?_, ?_⟩
  · have := h0.2
    simp only [if_true] at this
    exact this
  · have := h1.2
    simp only [if_neg hk.symm] at this
    exact this

end
end SmartDNN
