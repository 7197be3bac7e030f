import Verif.Props.UpdateWeights
import Verif.Props.Backprop
import Verif.Props.TensorOps

/-!
# train (C55)
-/

namespace SmartDNN
open Net Spec

section
variable {ρ T : Type} [Zero T] [One T] [Add T] [Sub T] [Mul T] [Div T] [Neg T] [NatCast T] [IntCast T]
  [LT T] [DecidableLT T] [LE T] [DecidableLE T] [DecidableEq T] [MathFn T]

/-! ### Specification -/

/-- One successful training step on input `x` with target `y`: forward, loss, gradient of the loss, backward, one
`updateWeights`.  It turns the model `net` into `net'` and has the loss value `v`. -/
def Spec.StepOk (E : Engine ρ T) (x y : Tensor T) (net net' : Net ρ T) (v : T) : Prop :=
  ∃ pred net1 L g g' net2, predict E x net = (.ok pred, net1) ∧ net1.loss = some L ∧
    L.compute pred y = .ok (ofFn [1] fun _ => v) ∧ L.gradient pred y = .ok g ∧
    backward g net1 = (.ok g', net2) ∧ updateWeights net2 = (.ok (), net')

/-- A training step that fails with `e`, leaving `net'`: the first failing stage decides. -/
inductive Spec.StepFails (E : Engine ρ T) (x : Tensor T) : Option (Tensor T) → Net ρ T → Err → Net ρ T → Prop where
  | forward {y net e net'} (h : predict E x net = (.error e, net')) : StepFails E x y net e net'
  | uncompiled {y net pred net'} (h : predict E x net = (.ok pred, net')) (hl : net'.loss = none) :
      StepFails E x y net .ub net'
  | noTarget {net pred net' L} (h : predict E x net = (.ok pred, net')) (hl : net'.loss = some L) :
      StepFails E x none net .ub net'
  | loss {y net pred net' L e} (h : predict E x net = (.ok pred, net')) (hl : net'.loss = some L)
      (hc : L.compute pred y = .error e) : StepFails E x (some y) net e net'
  | gradient {y net pred net' L v e} (h : predict E x net = (.ok pred, net')) (hl : net'.loss = some L)
      (hc : L.compute pred y = .ok v) (hg : L.gradient pred y = .error e) : StepFails E x (some y) net e net'
  | backward {y net pred net1 L v g e net'} (h : predict E x net = (.ok pred, net1)) (hl : net1.loss = some L)
      (hc : L.compute pred y = .ok v) (hg : L.gradient pred y = .ok g) (hb : backward g net1 = (.error e, net')) :
      StepFails E x (some y) net e net'
  | update {y net pred net1 L v g g' net2 e net'} (h : predict E x net = (.ok pred, net1)) (hl : net1.loss = some L)
      (hc : L.compute pred y = .ok v) (hg : L.gradient pred y = .ok g) (hb : backward g net1 = (.ok g', net2))
      (hu : updateWeights net2 = (.error e, net')) : StepFails E x (some y) net e net'

/-- Successful steps on a list of (input, target) pairs, in order, with their loss values. -/
inductive Spec.Steps (E : Engine ρ T) : List (Tensor T × Tensor T) → Net ρ T → Net ρ T → List T → Prop where
  | nil (net) : Steps E [] net net []
  | cons {x y ps net net1 net2 v vs} (h : StepOk E x y net net1 v) (hs : Steps E ps net1 net2 vs) :
      Steps E ((x, y) :: ps) net net2 (v :: vs)

/-- `n` successful epochs over the same pairs; each reports the mean of the losses of its steps. -/
inductive Spec.Epochs (E : Engine ρ T) (ps : List (Tensor T × Tensor T)) : Nat → Net ρ T → Net ρ T → List (Tensor T) → Prop where
  | zero (net) : Epochs E ps 0 net net []
  | succ {n net net1 net2 vs rs} (h : Steps E ps net net1 vs) (hs : Epochs E ps n net1 net2 rs) :
      Epochs E ps (n + 1) net net2 (ofFn [1] (fun _ => vs.foldl (· + ·) 0 / (ps.length : T)) :: rs)

/-- A call of `train` on a model: the outcome, the model afterwards, and the losses printed. -/
def Spec.trainCall (E : Engine ρ T) (inputs targets : List (Tensor T)) (epochs : Int) (net : Net ρ T) :
    Res Unit × Net ρ T × List (Tensor T) :=
  let r := train E inputs targets epochs ⟨net, ofFn [1] fun _ => 0, []⟩
  (r.1, r.2.net, r.2.printed)

/-! ### Loss values are scalars -/

omit [Zero T] [One T] [Add T] [Sub T] [Mul T] [Div T] [Neg T] [NatCast T] [IntCast T]
  [LT T] [DecidableLT T] [LE T] [DecidableLE T] [DecidableEq T] [MathFn T] in
theorem full_one (v : T) : Tensor.full (shapeOf [1]) v = ofFn [1] (fun _ => v) := by rfl

theorem compute_scalar {L : Loss T} {p t r : Tensor T} (h : L.compute p t = .ok r) : ∃ v, r = ofFn [1] fun _ => v := by
  cases L with
  | mse =>
    obtain ⟨t', -, h⟩ := bind_ok h
    obtain ⟨d, -, h⟩ := bind_ok h
    obtain ⟨sq, -, h⟩ := bind_ok h
    obtain ⟨s, hs, h⟩ := bind_ok h
    obtain ⟨xs, -, hs⟩ := bind_ok hs
    rw [make_one, Except.bind_ok', full_one] at hs
    cases hs
    unfold Tensor.divScalar at h
    split at h
    · cases h
    · rw [map_ofFn] at h
      cases h
      exact ⟨_, rfl⟩
  | crossEntropy eps =>
    simp only [Loss.compute] at h
    split at h
    · cases h
    · obtain ⟨a, -, h⟩ := bind_ok h
      obtain ⟨b, -, h⟩ := bind_ok h
      obtain ⟨c, -, h⟩ := bind_ok h
      rw [make_one, Except.bind_ok', full_one] at h
      cases h
      exact ⟨_, rfl⟩

theorem addAssign_one (a v : T) :
    (ofFn [1] fun _ => a).addAssign (some (ofFn [1] fun _ => v)) = .ok (ofFn [1] fun _ => a + v) := by
  unfold Tensor.addAssign Tensor.binopInPlace Mut.exec
  rw [C07_assign_same_shape _ _ _ dims_one dims_one ⟨le_rfl, fun _ => Or.inl rfl⟩]

/-! ### One sample -/

theorem sample_cases (E : Engine ρ T) (x : Tensor T) (targets : List (Tensor T)) (i : Nat) (net : Net ρ T) (a : T)
    (pr : List (Tensor T)) :
    (∃ y net' v, targets[i]? = some y ∧ StepOk E x y net net' v ∧
      trainSample E x targets i ⟨net, ofFn [1] fun _ => a, pr⟩ = (.ok (), ⟨net', ofFn [1] fun _ => a + v, pr⟩)) ∨
    (∃ e net' t', StepFails E x targets[i]? net e net' ∧
      trainSample E x targets i ⟨net, ofFn [1] fun _ => a, pr⟩ = (.error e, ⟨net', t', pr⟩)) := by
  unfold trainSample
  rcases hp : predict E x net with ⟨e | pred, net1⟩
  · refine Or.inr ⟨e, net1, ofFn [1] fun _ => a, .forward hp, ?_⟩
    rw [Mut.bind_apply]
    unfold Session.onNet
    simp only [hp]
  · have h1 : Session.onNet (predict E x) ⟨net, ofFn [1] fun _ => a, pr⟩ =
        (.ok pred, ⟨net1, ofFn [1] fun _ => a, pr⟩) := by
      unfold Session.onNet
      simp only [hp]
    rw [Mut.bind_apply, h1]
    simp only [Mut.get_bind]
    rcases hl : net1.loss with _ | L
    · exact Or.inr ⟨.ub, net1, ofFn [1] fun _ => a, .uncompiled hp hl, rfl⟩
    · have h2 : derefOpt (some L) = .ok L := rfl
      rw [h2, Mut.lift_ok_bind]
      rcases ht : targets[i]? with _ | y
      · refine Or.inr ⟨.ub, net1, ofFn [1] fun _ => a, .noTarget hp hl, ?_⟩
        have h3 : rd targets i = .error .ub := by
          unfold rd
          rw [if_pos (by omega)]
          simp only [Int.toNat_natCast, ht]
        rw [h3, Mut.lift_error_bind]
      · have h3 : rd targets i = .ok y := rd_some ht
        rw [h3, Mut.lift_ok_bind]
        rcases hc : L.compute pred y with e | value
        · exact Or.inr ⟨e, net1, ofFn [1] fun _ => a, .loss hp hl hc, rfl⟩
        · obtain ⟨v, rfl⟩ := compute_scalar hc
          rw [Mut.lift_ok_bind, addAssign_one, Mut.lift_ok_bind, Mut.modify_bind]
          rcases hg : L.gradient pred y with e | g
          · exact Or.inr ⟨e, net1, ofFn [1] fun _ => a + v, .gradient hp hl hc hg, rfl⟩
          · rw [Mut.lift_ok_bind, Mut.bind_apply]
            rcases hb : backward g net1 with ⟨e | g', net2⟩
            · refine Or.inr ⟨e, net2, ofFn [1] fun _ => a + v, .backward hp hl hc hg hb, ?_⟩
              unfold Session.onNet
              simp only [hb]
            · have h4 : Session.onNet (backward g) ⟨net1, ofFn [1] fun _ => a + v, pr⟩ =
                  (.ok g', ⟨net2, ofFn [1] fun _ => a + v, pr⟩) := by
                unfold Session.onNet
                simp only [hb]
              simp only [h4]
              rcases hu : updateWeights net2 with ⟨e | u, net3⟩
              · refine Or.inr ⟨e, net3, ofFn [1] fun _ => a + v, .update hp hl hc hg hb hu, ?_⟩
                unfold Session.onNet
                simp only [hu]
              · refine Or.inl ⟨y, net3, v, rfl, ⟨pred, net1, L, g, g', net2, hp, hl, hc, hg, hb, hu⟩, ?_⟩
                unfold Session.onNet
                simp only [hu]

/-- A step has only one outcome. -/
theorem stepOk_det {E : Engine ρ T} {x y : Tensor T} {net n1 n2 : Net ρ T} {v1 v2 : T} (h1 : StepOk E x y net n1 v1)
    (h2 : StepOk E x y net n2 v2) : n1 = n2 ∧ v1 = v2 := by
  obtain ⟨p1, m1, L1, g1, k1, o1, a1, a2, a3, a4, a5, a6⟩ := h1
  obtain ⟨p2, m2, L2, g2, k2, o2, b1, b2, b3, b4, b5, b6⟩ := h2
  rw [a1] at b1; cases b1
  rw [a2] at b2; cases b2
  rw [a3] at b3
  rw [a4] at b4; cases b4
  rw [a5] at b5; cases b5
  rw [a6] at b6; cases b6
  refine ⟨rfl, ?_⟩
  have := congrArg Tensor.data (Except.ok.inj b3)
  simpa [ofFn_data, indices] using this

theorem stepOk_not_fails {E : Engine ρ T} {x y : Tensor T} {net n1 n2 : Net ρ T} {v : T} {e : Err}
    (h1 : StepOk E x y net n1 v) (h2 : StepFails E x (some y) net e n2) : False := by
  obtain ⟨p1, m1, L1, g1, k1, o1, a1, a2, a3, a4, a5, a6⟩ := h1
  cases h2 with
  | forward h => rw [a1] at h; cases h
  | uncompiled h hl => rw [a1] at h; cases h; rw [a2] at hl; cases hl
  | loss h hl hc => rw [a1] at h; cases h; rw [a2] at hl; cases hl; rw [a3] at hc; cases hc
  | gradient h hl hc hg => rw [a1] at h; cases h; rw [a2] at hl; cases hl; rw [a4] at hg; cases hg
  | backward h hl hc hg hb =>
    rw [a1] at h; cases h; rw [a2] at hl; cases hl; rw [a4] at hg; cases hg; rw [a5] at hb; cases hb
  | update h hl hc hg hb hu =>
    rw [a1] at h; cases h; rw [a2] at hl; cases hl; rw [a4] at hg; cases hg; rw [a5] at hb; cases hb
    rw [a6] at hu; cases hu

/-! ### One pass over the data -/

theorem samples_ok (E : Engine ρ T) (targets : List (Tensor T)) (xs : List (Tensor T)) : ∀ (i : Nat) (net net' : Net ρ T)
    (a : T) (pr : List (Tensor T)) (vs : List T), xs.length ≤ (targets.drop i).length →
    Steps E (xs.zip (targets.drop i)) net net' vs →
    trainSamples E targets i xs ⟨net, ofFn [1] fun _ => a, pr⟩ =
      (.ok (), ⟨net', ofFn [1] fun _ => vs.foldl (· + ·) a, pr⟩) := by
  induction xs with
  | nil =>
    intro i net net' a pr vs _ h
    rw [List.zip_nil_left] at h
    cases h
    rfl
  | cons x xs ih =>
    intro i net net' a pr vs hlen h
    have hi : i < targets.length := by simp at hlen; omega
    rw [List.drop_eq_getElem_cons hi, List.zip_cons_cons] at h
    cases h with
    | cons h hs =>
    rename_i net1 v vs
    show (trainSample E x targets i >>= fun _ => trainSamples E targets (i + 1) xs) _ = _
    rw [Mut.bind_apply]
    rcases sample_cases E x targets i net a pr with ⟨y, n1, v1, hy, hst, he⟩ | ⟨e, n1, t1, hst, he⟩
    · rw [List.getElem?_eq_getElem hi] at hy
      cases hy
      obtain ⟨rfl, rfl⟩ := stepOk_det h hst
      rw [he]
      exact ih (i + 1) _ _ _ pr vs (by simp at hlen ⊢; omega) hs
    · rw [List.getElem?_eq_getElem hi] at hst
      exact (stepOk_not_fails h hst).elim

/-- Every pass over the data either makes all its steps or fails at some sample after completing those before. -/
theorem samples_cases (E : Engine ρ T) (targets : List (Tensor T)) (xs : List (Tensor T)) : ∀ (i : Nat) (net : Net ρ T)
    (a : T) (pr : List (Tensor T)),
    (xs.length ≤ (targets.drop i).length ∧ ∃ net' vs, Steps E (xs.zip (targets.drop i)) net net' vs) ∨
    (∃ k x net1 vs e net' t', xs[k]? = some x ∧ Steps E ((xs.take k).zip (targets.drop i)) net net1 vs ∧
      StepFails E x targets[i + k]? net1 e net' ∧
      trainSamples E targets i xs ⟨net, ofFn [1] fun _ => a, pr⟩ = (.error e, ⟨net', t', pr⟩)) := by
  induction xs with
  | nil =>
    intro i net a pr
    exact Or.inl ⟨by simp, net, [], by rw [List.zip_nil_left]; exact .nil net⟩
  | cons x xs ih =>
    intro i net a pr
    have hsplit : trainSamples E targets i (x :: xs) ⟨net, ofFn [1] fun _ => a, pr⟩ =
        (trainSample E x targets i >>= fun _ => trainSamples E targets (i + 1) xs)
          ⟨net, ofFn [1] fun _ => a, pr⟩ := rfl
    rw [hsplit, Mut.bind_apply]
    rcases sample_cases E x targets i net a pr with ⟨y, n1, v1, hy, hst, he⟩ | ⟨e, n1, t1, hst, he⟩
    · obtain ⟨hi, hy'⟩ := List.getElem?_eq_some_iff.1 hy
      subst hy'
      rw [he, List.drop_eq_getElem_cons hi]
      rcases ih (i + 1) n1 (a + v1) pr with ⟨hlen, net', vs, hs⟩ | ⟨k, x', net1, vs, e, net', t', hx, hs, hf, hr⟩
      · refine Or.inl ⟨by simp at hlen ⊢; omega, net', v1 :: vs, ?_⟩
        rw [List.zip_cons_cons]
        exact .cons hst hs
      · refine Or.inr ⟨k + 1, x', net1, v1 :: vs, e, net', t', by simpa using hx, ?_, ?_, hr⟩
        · rw [List.take_succ_cons, List.zip_cons_cons]
          exact .cons hst hs
        · rw [show i + (k + 1) = i + 1 + k by omega]
          exact hf
    · refine Or.inr ⟨0, x, net, [], e, n1, t1, rfl, ?_, hst, ?_⟩
      · rw [List.take_zero, List.zip_nil_left]
        exact .nil net
      · rw [he]

/-! ### Epochs -/

theorem epoch_eq (E : Engine ρ T) (inputs targets : List (Tensor T)) (s : Session ρ T) :
    trainEpoch E inputs targets s = (trainSamples E targets 0 inputs >>= fun _ => (do
      let s ← Mut.get
      let report ← Mut.lift (s.total.divScalar (inputs.length : T))
      Mut.modify (fun s => { s with printed := s.printed ++ [report] }) : Mut (Session ρ T) Unit))
      ⟨s.net, ofFn [1] fun _ => 0, s.printed⟩ := by
  unfold trainEpoch
  rw [make_one, Mut.lift_ok_bind, Mut.modify_bind]
  rfl

theorem epoch_ok (E : Engine ρ T) (inputs targets : List (Tensor T)) (s : Session ρ T) (net' : Net ρ T) (vs : List T)
    (hlen : inputs.length ≤ targets.length) (hn : (inputs.length : T) ≠ 0)
    (h : Steps E (inputs.zip targets) s.net net' vs) :
    trainEpoch E inputs targets s = (.ok (), ⟨net', ofFn [1] fun _ => vs.foldl (· + ·) 0,
      s.printed ++ [ofFn [1] fun _ => vs.foldl (· + ·) 0 / (inputs.length : T)]⟩) := by
  have h1 := samples_ok E targets inputs 0 s.net net' 0 s.printed vs hlen h
  rw [epoch_eq, Mut.bind_apply, h1]
  simp only [Mut.get_bind]
  rw [divScalar_ofFn _ _ hn, Mut.lift_ok_bind]
  rfl

theorem epoch_fails (E : Engine ρ T) (inputs targets : List (Tensor T)) (s : Session ρ T) {e : Err} {s1 : Session ρ T}
    (h : trainSamples E targets 0 inputs ⟨s.net, ofFn [1] fun _ => 0, s.printed⟩ = (.error e, s1)) :
    trainEpoch E inputs targets s = (.error e, s1) := by
  rw [epoch_eq, Mut.bind_apply, h]

theorem epoch_zero (E : Engine ρ T) (inputs targets : List (Tensor T)) (s : Session ρ T) (net' : Net ρ T) (vs : List T)
    (hlen : inputs.length ≤ targets.length) (hn : (inputs.length : T) = 0)
    (h : Steps E (inputs.zip targets) s.net net' vs) :
    trainEpoch E inputs targets s = (.error .invalidArgument, ⟨net', ofFn [1] fun _ => vs.foldl (· + ·) 0, s.printed⟩) := by
  have h1 := samples_ok E targets inputs 0 s.net net' 0 s.printed vs hlen h
  rw [epoch_eq, Mut.bind_apply, h1]
  simp only [Mut.get_bind]
  unfold Tensor.divScalar
  rw [if_pos hn]
  rfl

theorem forN_const_succ {σ : Type} (n : Nat) (m : Mut σ Unit) (s : σ) :
    Mut.forN (n + 1) (fun _ => m) s = (m >>= fun _ => Mut.forN n (fun _ => m)) s := by
  have : ∀ l1 l2 : List Nat, l1.length = l2.length →
      l1.foldr (fun _ rest => Mut.bind m (fun _ => rest)) (Mut.pure ()) =
      l2.foldr (fun _ rest => Mut.bind m (fun _ => rest)) (Mut.pure ()) := by
    intro l1
    induction l1 with
    | nil => intro l2 h; cases l2 with
      | nil => rfl
      | cons => cases h
    | cons a l1 ih => intro l2 h; cases l2 with
      | nil => cases h
      | cons b l2 => simp only [List.foldr_cons]; rw [ih l2 (by simpa using h)]
  unfold Mut.forN
  rw [this (List.range (n + 1)) (0 :: List.range n) (by simp)]
  rfl

theorem epochs_ok (E : Engine ρ T) (inputs targets : List (Tensor T)) (hlen : inputs.length ≤ targets.length)
    (hn : (inputs.length : T) ≠ 0) {n : Nat} {net net' : Net ρ T} {rs : List (Tensor T)}
    (h : Epochs E (inputs.zip targets) n net net' rs) : ∀ (total : Tensor T) (pr : List (Tensor T)),
    ∃ total', Mut.forN n (fun _ => trainEpoch E inputs targets) ⟨net, total, pr⟩ = (.ok (), ⟨net', total', pr ++ rs⟩) := by
  induction h with
  | zero net => intro total pr; exact ⟨total, by rw [List.append_nil]; rfl⟩
  | succ h _ ih =>
    intro total pr
    rename_i vs rs _
    obtain ⟨t', ht⟩ := ih (ofFn [1] fun _ => vs.foldl (· + ·) 0)
      (pr ++ [ofFn [1] fun _ => vs.foldl (· + ·) 0 / (inputs.length : T)])
    refine ⟨t', ?_⟩
    rw [forN_const_succ, Mut.bind_apply, epoch_ok E inputs targets _ _ _ hlen hn h]
    simp only
    rw [ht, List.length_zip, Nat.min_eq_left hlen, List.append_assoc]
    rfl

theorem epochs_cases (E : Engine ρ T) (inputs targets : List (Tensor T)) (n : Nat) : ∀ (net : Net ρ T) (total : Tensor T)
    (pr : List (Tensor T)),
    ((n = 0 ∨ inputs.length ≤ targets.length ∧ (inputs.length : T) ≠ 0) ∧
      ∃ net' rs, Epochs E (inputs.zip targets) n net net' rs) ∨
    (∃ m net1 rs net2 vs e net' t', m < n ∧ Epochs E (inputs.zip targets) m net net1 rs ∧
      Mut.forN n (fun _ => trainEpoch E inputs targets) ⟨net, total, pr⟩ = (.error e, ⟨net', t', pr ++ rs⟩) ∧
      ((∃ k x, inputs[k]? = some x ∧ Steps E ((inputs.take k).zip targets) net1 net2 vs ∧
          StepFails E x targets[k]? net2 e net') ∨
        (Steps E (inputs.zip targets) net1 net2 vs ∧ (inputs.length : T) = 0 ∧ e = .invalidArgument ∧ net' = net2))) := by
  induction n with
  | zero => intro net total pr; exact Or.inl ⟨Or.inl rfl, net, [], .zero net⟩
  | succ n ih =>
    intro net total pr
    rw [forN_const_succ, Mut.bind_apply]
    rcases samples_cases E targets inputs 0 net 0 pr with ⟨hlen, net1, vs, hs⟩ | ⟨k, x, net1, vs, e, net', t', hx, hs, hf, hr⟩
    · have hlen : inputs.length ≤ targets.length := hlen
      have hs : Steps E (inputs.zip targets) net net1 vs := hs
      by_cases hn : (inputs.length : T) = 0
      · refine Or.inr ⟨0, net, [], net1, vs, .invalidArgument, net1, ofFn [1] fun _ => vs.foldl (· + ·) 0, by omega, .zero net, ?_, Or.inr ⟨hs, hn, rfl, rfl⟩⟩
        rw [epoch_zero E inputs targets ⟨net, total, pr⟩ net1 vs hlen hn hs, List.append_nil]
      · rw [epoch_ok E inputs targets ⟨net, total, pr⟩ net1 vs hlen hn hs]
        simp only
        rcases ih net1 (ofFn [1] fun _ => vs.foldl (· + ·) 0)
          (pr ++ [ofFn [1] fun _ => vs.foldl (· + ·) 0 / (inputs.length : T)]) with
          ⟨-, net', rs, he⟩ | ⟨m, n1, rs, n2, vs2, e, n3, t', hm, he, hr, hc⟩
        · exact Or.inl ⟨Or.inr ⟨hlen, hn⟩, net', _, .succ hs he⟩
        · refine Or.inr ⟨m + 1, n1, _, n2, vs2, e, n3, t', by omega, .succ hs he, ?_, hc⟩
          rw [hr, List.length_zip, Nat.min_eq_left hlen, List.append_assoc]
          rfl
    · refine Or.inr ⟨0, net, [], net1, vs, e, net', t', by omega, .zero net, ?_, Or.inl ⟨k, x, hx, hs, ?_⟩⟩
      · rw [epoch_fails E inputs targets ⟨net, total, pr⟩ hr, List.append_nil]
      · rw [show (0 : Nat) + k = k by omega] at hf
        exact hf

theorem steps_det {E : Engine ρ T} {ps : List (Tensor T × Tensor T)} {net n1 : Net ρ T} {v1 : List T}
    (h1 : Steps E ps net n1 v1) : ∀ {n2 : Net ρ T} {v2 : List T}, Steps E ps net n2 v2 → n1 = n2 ∧ v1 = v2 := by
  induction h1 with
  | nil net => intro n2 v2 h2; cases h2; exact ⟨rfl, rfl⟩
  | cons h _ ih =>
    intro n2 v2 h2
    cases h2 with
    | cons h' hs' =>
      obtain ⟨rfl, rfl⟩ := stepOk_det h h'
      obtain ⟨rfl, rfl⟩ := ih hs'
      exact ⟨rfl, rfl⟩

/-- **C55.** `train` succeeds exactly when every step of every epoch does: the model afterwards is the result of all
the steps (forward, loss gradient, backward, one update) in order, epoch after epoch, and nothing else; one line per
epoch reports the mean of the losses its steps had before their updates. -/
theorem C55_train (E : Engine ρ T) (inputs targets : List (Tensor T)) (epochs : Int) (net net' : Net ρ T)
    (rs : List (Tensor T)) (hlen : inputs.length ≤ targets.length) (hn : (inputs.length : T) ≠ 0) :
    trainCall E inputs targets epochs net = (.ok (), net', rs) ↔
      Epochs E (inputs.zip targets) epochs.toNat net net' rs := by
  unfold trainCall train
  constructor
  · intro h
    rcases epochs_cases E inputs targets epochs.toNat net (ofFn [1] fun _ => 0) [] with
      ⟨-, n1, r1, he⟩ | ⟨m, n1, r1, n2, vs, e, n3, t', -, -, hr, -⟩
    · obtain ⟨t', ht⟩ := epochs_ok E inputs targets hlen hn he (ofFn [1] fun _ => 0) []
      rw [ht] at h
      cases h
      exact he
    · rw [hr] at h
      cases h
  · intro h
    obtain ⟨t', ht⟩ := epochs_ok E inputs targets hlen hn h (ofFn [1] fun _ => 0) []
    rw [ht]
    rfl

/-- If `train` fails, some epochs were completed (and reported), some samples of the next one were, and then a step
failed (see `StepFails`) or, without any sample, the division by the number of samples did. -/
theorem C55_train_fails (E : Engine ρ T) (inputs targets : List (Tensor T)) (epochs : Int) (net net' : Net ρ T)
    (rs : List (Tensor T)) (e : Err) (h : trainCall E inputs targets epochs net = (.error e, net', rs)) :
    ∃ m net1 net2 vs, m < epochs.toNat ∧ Epochs E (inputs.zip targets) m net net1 rs ∧
      ((∃ k x, inputs[k]? = some x ∧ Steps E ((inputs.take k).zip targets) net1 net2 vs ∧
          StepFails E x targets[k]? net2 e net') ∨
        (Steps E (inputs.zip targets) net1 net2 vs ∧ (inputs.length : T) = 0 ∧ e = .invalidArgument ∧ net' = net2)) := by
  unfold trainCall train at h
  rcases epochs_cases E inputs targets epochs.toNat net (ofFn [1] fun _ => 0) [] with
    ⟨hd, n1, r1, he⟩ | ⟨m, n1, r1, n2, vs, e', n3, t', hm, he, hr, hc⟩
  · exfalso
    rcases hd with h0 | ⟨hlen, hn⟩
    · rw [h0] at h
      cases h
    · obtain ⟨t', ht⟩ := epochs_ok E inputs targets hlen hn he (ofFn [1] fun _ => 0) []
      rw [ht] at h
      cases h
  · rw [hr] at h
    cases h
    exact ⟨m, n1, n2, vs, hm, he, hc⟩

/-- With fewer targets than inputs, training for an epoch or more never succeeds (the targets are read beyond the end
of the list). -/
theorem C55_short_targets (E : Engine ρ T) (inputs targets : List (Tensor T)) (epochs : Int) (net : Net ρ T)
    (hlen : targets.length < inputs.length) (he : 0 < epochs) : (trainCall E inputs targets epochs net).1 ≠ .ok () := by
  unfold trainCall train
  rcases epochs_cases E inputs targets epochs.toNat net (ofFn [1] fun _ => 0) [] with
    ⟨hd, n1, r1, -⟩ | ⟨m, n1, r1, n2, vs, e, n3, t', hm, he, hr, hc⟩
  · omega
  · rw [hr]
    intro h
    cases h

/-- `compile` replaces the loss and the optimizer: what the model was compiled with before, also an optimizer that has been
used, leaves no trace in `train`. -/
theorem C55_recompile (E : Engine ρ T) (inputs targets : List (Tensor T)) (epochs : Int) (net before : Net ρ T) (L : Loss T)
    (o : Optimizer (Nat × Bool) T) (hl : before.layers = net.layers) (hr : before.rng = net.rng) :
    trainCall E inputs targets epochs (compile L o before) = trainCall E inputs targets epochs (compile L o net) := by
  have : compile L o before = compile L o net := by
    cases before
    cases net
    cases hl
    cases hr
    rfl
  rw [this]

/-- Zero or a negative number of epochs: nothing happens, whatever the data. -/
theorem C55_no_epochs (E : Engine ρ T) (inputs targets : List (Tensor T)) (epochs : Int) (net : Net ρ T) (h : epochs ≤ 0) :
    trainCall E inputs targets epochs net = (.ok (), net, []) := by
  unfold trainCall train
  rw [Int.toNat_of_nonpos h]
  rfl

/-- No inputs and an epoch or more: `std::invalid_argument`, the model is unchanged, nothing is printed. -/
theorem C55_no_data (E : Engine ρ T) (targets : List (Tensor T)) (epochs : Int) (net : Net ρ T) (h : 0 < epochs)
    (h0 : ((0 : Nat) : T) = 0) : trainCall E [] targets epochs net = (.error .invalidArgument, net, []) := by
  unfold trainCall train
  obtain ⟨n, hn⟩ : ∃ n, epochs.toNat = n + 1 := ⟨epochs.toNat - 1, by omega⟩
  rw [hn, forN_const_succ, Mut.bind_apply,
    epoch_zero E [] targets ⟨net, _, []⟩ net [] (by simp) h0 (by rw [List.zip_nil_left]; exact .nil net)]

theorem forN_const_add {σ : Type} (n m : Nat) (body : Mut σ Unit) : ∀ (s : σ),
    Mut.forN (n + m) (fun _ => body) s =
      (Mut.forN n (fun _ => body) >>= fun _ => Mut.forN m (fun _ => body)) s := by
  induction n with
  | zero => intro s; rw [Nat.zero_add]; rfl
  | succ n ih =>
    intro s
    rw [show n + 1 + m = (n + m) + 1 by omega, forN_const_succ, Mut.bind_apply, Mut.bind_apply, forN_const_succ,
      Mut.bind_apply]
    rcases body s with ⟨_ | _, s'⟩
    · rfl
    · simp only
      rw [ih s', Mut.bind_apply]

/-- `m` only appends to the printed losses, and does not look at them. -/
def Appends {α : Type} (m : Mut (Session ρ T) α) : Prop := ∀ net t pr,
  m ⟨net, t, pr⟩ = ((m ⟨net, t, []⟩).1, ⟨(m ⟨net, t, []⟩).2.net, (m ⟨net, t, []⟩).2.total, pr ++ (m ⟨net, t, []⟩).2.printed⟩)

theorem appends_bind {α β : Type} {m : Mut (Session ρ T) α} {f : α → Mut (Session ρ T) β} (hm : Appends m)
    (hf : ∀ a, Appends (f a)) : Appends (m >>= f) := by
  intro net t pr
  rw [Mut.bind_apply, Mut.bind_apply, hm net t pr]
  rcases h : m ⟨net, t, []⟩ with ⟨e | a, n1, t1, p1⟩
  · rfl
  · simp only
    rw [hf a n1 t1 (pr ++ p1), hf a n1 t1 p1]
    simp only [List.append_assoc]

theorem appends_get {β : Type} {f : Session ρ T → Mut (Session ρ T) β}
    (h1 : ∀ net t pr, f ⟨net, t, pr⟩ = f ⟨net, t, []⟩) (h2 : ∀ s, Appends (f s)) : Appends (Mut.get >>= f) := by
  intro net t pr
  rw [Mut.get_bind, Mut.get_bind, h1 net t pr]
  exact h2 _ net t pr

theorem appends_lift {α : Type} (r : Res α) : Appends (Mut.lift r : Mut (Session ρ T) α) := by
  intro net t pr
  rw [Mut.lift_apply, Mut.lift_apply, List.append_nil]

theorem appends_onNet {α : Type} (m : Mut (Net ρ T) α) : Appends (Session.onNet m) := by
  intro net t pr
  unfold Session.onNet
  simp only [List.append_nil]

theorem appends_total (t' : Tensor T) : Appends (Mut.modify (fun s : Session ρ T => { s with total := t' })) := by
  intro net t pr
  show ((.ok (), _) : Res Unit × Session ρ T) = (.ok (), ⟨net, t', pr ++ []⟩)
  rw [List.append_nil]

theorem appends_sample (E : Engine ρ T) (x : Tensor T) (targets : List (Tensor T)) (i : Nat) :
    Appends (trainSample E x targets i) := by
  unfold trainSample
  refine appends_bind (appends_onNet _) fun pred => appends_get (fun _ _ _ => rfl) fun s => ?_
  refine appends_bind (appends_lift _) fun _ => appends_bind (appends_lift _) fun _ => appends_bind (appends_lift _) fun _ =>
    appends_bind (appends_lift _) fun _ => appends_bind (appends_total _) fun _ => appends_bind (appends_lift _) fun _ =>
    appends_bind (appends_onNet _) fun _ => appends_onNet _

theorem appends_samples (E : Engine ρ T) (targets : List (Tensor T)) (xs : List (Tensor T)) : ∀ i,
    Appends (trainSamples E targets i xs) := by
  induction xs with
  | nil =>
    intro i net t pr
    show ((.ok (), _) : Res Unit × Session ρ T) = (.ok (), ⟨net, t, pr ++ []⟩)
    rw [List.append_nil]
  | cons x xs ih => intro i; exact appends_bind (appends_sample E x targets i) fun _ => ih (i + 1)

theorem appends_epoch (E : Engine ρ T) (inputs targets : List (Tensor T)) : Appends (trainEpoch E inputs targets) := by
  unfold trainEpoch
  refine appends_bind (appends_lift _) fun sh => appends_bind (appends_total _) fun _ =>
    appends_bind (appends_samples E targets inputs 0) fun _ => appends_get (fun _ _ _ => rfl) fun s =>
    appends_bind (appends_lift _) fun r => ?_
  intro net t pr
  rfl

theorem appends_epochs (E : Engine ρ T) (inputs targets : List (Tensor T)) (n : Nat) :
    Appends (Mut.forN n (fun _ => trainEpoch E inputs targets)) := by
  induction n with
  | zero =>
    intro net t pr
    show ((.ok (), _) : Res Unit × Session ρ T) = (.ok (), ⟨net, t, pr ++ []⟩)
    rw [List.append_nil]
  | succ n ih =>
    intro net t pr
    rw [forN_const_succ, forN_const_succ]
    exact appends_bind (appends_epoch E inputs targets) (fun _ => ih) net t pr

/-- The total left by an earlier call does not matter. -/
theorem forN_total_irrelevant (E : Engine ρ T) (inputs targets : List (Tensor T)) (n : Nat) (net : Net ρ T)
    (t1 t2 : Tensor T) (pr : List (Tensor T)) :
    (Mut.forN n (fun _ => trainEpoch E inputs targets) ⟨net, t1, pr⟩).1 =
      (Mut.forN n (fun _ => trainEpoch E inputs targets) ⟨net, t2, pr⟩).1 ∧
    (Mut.forN n (fun _ => trainEpoch E inputs targets) ⟨net, t1, pr⟩).2.net =
      (Mut.forN n (fun _ => trainEpoch E inputs targets) ⟨net, t2, pr⟩).2.net ∧
    (Mut.forN n (fun _ => trainEpoch E inputs targets) ⟨net, t1, pr⟩).2.printed =
      (Mut.forN n (fun _ => trainEpoch E inputs targets) ⟨net, t2, pr⟩).2.printed := by
  cases n with
  | zero => exact ⟨rfl, rfl, rfl⟩
  | succ n =>
    have : trainEpoch E inputs targets ⟨net, t1, pr⟩ = trainEpoch E inputs targets ⟨net, t2, pr⟩ := by
      rw [epoch_eq, epoch_eq]
    rw [forN_const_succ, forN_const_succ, Mut.bind_apply, Mut.bind_apply, this]
    exact ⟨rfl, rfl, rfl⟩

/-- Training for `n` epochs and then, in a second call, for `m` epochs on the same data is training for `n + m`
epochs: same model, same lines printed, same failure. -/
theorem C55_split (E : Engine ρ T) (inputs targets : List (Tensor T)) (n m : Nat) (net : Net ρ T) :
    trainCall E inputs targets (n + m) net =
      match trainCall E inputs targets n net with
      | (.error e, net1, p1) => (.error e, net1, p1)
      | (.ok (), net1, p1) =>
        match trainCall E inputs targets m net1 with
        | (res, net2, p2) => (res, net2, p1 ++ p2) := by
  unfold trainCall train
  rw [show ((n : Int) + m).toNat = n + m by omega, Int.toNat_natCast, Int.toNat_natCast, forN_const_add, Mut.bind_apply]
  rcases Mut.forN n (fun _ => trainEpoch E inputs targets) ⟨net, ofFn [1] fun _ => 0, []⟩ with ⟨e | u, n1, t1, p1⟩
  · rfl
  · simp only
    rw [appends_epochs E inputs targets m n1 t1 p1]
    obtain ⟨a1, a2, a3⟩ := forN_total_irrelevant E inputs targets m n1 t1 (ofFn [1] fun _ => 0) []
    rw [a1, a2, a3]

/-- Targets beyond the number of inputs are ignored. -/
theorem C55_extra_targets (E : Engine ρ T) (inputs targets extra : List (Tensor T)) (epochs : Int) (net : Net ρ T)
    (hlen : inputs.length ≤ targets.length) :
    trainCall E inputs (targets ++ extra) epochs net = trainCall E inputs targets epochs net := by
  have hs : ∀ (xs : List (Tensor T)) i, i + xs.length ≤ targets.length →
      (trainSamples E (targets ++ extra) i xs : Mut (Session ρ T) Unit) = trainSamples E targets i xs := by
    intro xs
    induction xs with
    | nil => intro i _; rfl
    | cons x xs ih =>
      intro i hi
      rw [List.length_cons] at hi
      have hr : rd (targets ++ extra) i = rd targets i := by
        unfold rd
        rw [if_pos (by omega), if_pos (by omega), Int.toNat_natCast, List.getElem?_append_left (by omega)]
      show (trainSample E x (targets ++ extra) i >>= fun _ => trainSamples E (targets ++ extra) (i + 1) xs) =
        (trainSample E x targets i >>= fun _ => trainSamples E targets (i + 1) xs)
      rw [ih (i + 1) (by omega)]
      have : (trainSample E x (targets ++ extra) i : Mut (Session ρ T) Unit) = trainSample E x targets i := by
        unfold trainSample
        rw [hr]
      rw [this]
  unfold trainCall train
  have : (trainEpoch E inputs (targets ++ extra) : Mut (Session ρ T) Unit) = trainEpoch E inputs targets := by
    unfold trainEpoch
    rw [hs inputs 0 (by omega)]
  rw [this]

end
end SmartDNN
