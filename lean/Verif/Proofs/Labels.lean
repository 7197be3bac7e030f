import Verif.Spec.Labels

namespace SmartDNN
open Net Spec

theorem total_labels {b k : Nat} {υ : Nat → Nat} (h : Reorders k υ) (f : List Nat → ℝ) : total [b, k] (fun i => f (ren id υ i)) = total [b, k] f := by
  rw [total_cons', total_cons']
  refine Finset.sum_congr rfl fun i _ => ?_
  rw [total_cons', total_cons']
  exact sum_reorder h fun j => total [] fun x => f (i :: j :: x)

theorem total_row (k : Nat) (f : List Nat → ℝ) : total [k] f = ∑ j ∈ Finset.range k, f [j] := by
  rw [total_cons']
  refine Finset.sum_congr rfl fun j _ => ?_
  simp [total, indices]

theorem softmax_labels {b k : Nat} {υ : Nat → Nat} (h : Reorders k υ) (f : List Nat → ℝ) {i : List Nat} (hi : ValidIdx [b, k] i) :
    softmax [k] (columns υ f) i = softmax [k] f (ren id υ i) := by
  obtain ⟨a, c, rfl, -, -⟩ := valid2_iff.1 hi
  unfold softmax
  rw [total_row, total_row]
  simp only [List.headD_cons]
  show Real.exp (f [a, υ c]) / (∑ j ∈ Finset.range k, Real.exp (f [a, υ j])) = Real.exp (f [a, υ c]) / ∑ j ∈ Finset.range k, Real.exp (f [a, j])
  rw [sum_reorder h fun j => Real.exp (f [a, j])]

theorem loss_labels {b k : Nat} {υ : Nat → Nat} (h : Reorders k υ) {L : Loss ℝ} (hf : LossFits L [b, k]) (p t : List Nat → ℝ) :
    ∃ v g, L.compute (ofFn [b, k] p) (ofFn [b, k] t) = .ok (ofFn [1] fun _ => v) ∧
      L.compute (ofFn [b, k] (columns υ p)) (ofFn [b, k] (columns υ t)) = .ok (ofFn [1] fun _ => v) ∧
      L.gradient (ofFn [b, k] p) (ofFn [b, k] t) = .ok (ofFn [b, k] g) ∧
      L.gradient (ofFn [b, k] (columns υ p)) (ofFn [b, k] (columns υ t)) = .ok (ofFn [b, k] (columns υ g)) := by
  cases L with
  | mse =>
    refine ⟨_, _, C29_compute hf p t, ?_, mse_gradient_ofFn hf p t, mse_gradient_ofFn hf _ _⟩
    rw [C29_compute hf]
    refine congrArg (fun v : ℝ => (.ok (ofFn [1] fun _ => v) : Res (Tensor ℝ))) ?_
    unfold mse
    rw [← total_labels h fun i => (p i - t i) ^ 2]
    rfl
  | crossEntropy eps =>
    obtain ⟨b', k', he, hd⟩ := hf
    simp only [List.cons.injEq, and_true] at he
    obtain ⟨rfl, rfl⟩ := he
    refine ⟨_, _, C30_compute hd eps p t, ?_, C31_value hd eps p t, C31_value hd eps _ _⟩
    rw [C30_compute hd]
    refine congrArg (fun v : ℝ => (.ok (ofFn [1] fun _ => v) : Res (Tensor ℝ))) ?_
    unfold crossEntropy
    rw [← total_labels h fun i => t i * Real.log (clampTo eps (p i))]
    rfl

/-- Layers with renamed units and the same end. -/
theorem labels_split {ls es : List (Layer ℝ)} {ds hs : List Nat} (hc : Chain (ls ++ es) ds hs) : ∃ ms, Chain ls ds ms ∧ Chain es ms hs := by
  induction ls generalizing ds with
  | nil => exact ⟨ds, .nil _, hc⟩
  | cons l ls ih =>
    cases hc with
    | cons h1 h2 =>
      obtain ⟨ms, h3, h4⟩ := ih h2
      exact ⟨ms, .cons h1 h3, h4⟩

theorem labels_join {ls es : List (Layer ℝ)} {ds ms hs : List Nat} (h : Chain ls ds ms) (h' : Chain es ms hs) : Chain (ls ++ es) ds hs := by
  induction h with
  | nil => exact h'
  | cons a _ ih => exact .cons a (ih h')

theorem end_step {ρ : Type} (E : Engine ρ ℝ) {es es' : List (Layer ℝ)} (he : SameEnd es es') {ms : List Nat} {b k : Nat} (hc : Chain es ms [b, k]) {υ : Nat → Nat}
    (hυ : Reorders k υ) (r : ρ) (x : List Nat → ℝ) :
    ms = [b, k] ∧ ∃ y ks ks', forwardLayers E es (ofFn [b, k] x) r = (.ok (ofFn [b, k] y), ks, r) ∧
      forwardLayers E es' (ofFn [b, k] (columns υ x)) r = (.ok (ofFn [b, k] (columns υ y)), ks', r) ∧ SameEnd ks ks' ∧ Chain ks [b, k] [b, k] ∧
      ks.map params = es.map params ∧ (∀ l ∈ ks, Ready l) ∧
      ∀ g, ∃ z, backwardLayers ks (ofFn [b, k] g) = (.ok (ofFn [b, k] z), ks) ∧
        backwardLayers ks' (ofFn [b, k] (columns υ g)) = (.ok (ofFn [b, k] (columns υ z)), ks') := by
  cases he with
  | nothing =>
    cases hc
    exact ⟨rfl, x, [], [], rfl, rfl, .nothing, .nil _, rfl, by simp, fun g => ⟨g, rfl, rfl⟩⟩
  | @softmax a a' mode ha ha' =>
    obtain ⟨kind, inp⟩ := a
    obtain ⟨kind', inp'⟩ := a'
    simp only at ha ha'
    subst ha ha'
    cases hc with
    | cons hl hls =>
      cases hls
      have hd : Dims [b, k] ∧ ms = [b, k] := by
        cases hl with
        | elementwise hd _ => exact ⟨hd, rfl⟩
        | softmax hd _ _ => exact ⟨hd, rfl⟩
      obtain ⟨hd, rfl⟩ := hd
      refine ⟨rfl, softmax [k] x, [⟨.activation ⟨.softmax, some (ofFn [b, k] x)⟩, mode⟩], [⟨.activation ⟨.softmax, some (ofFn [b, k] (columns υ x))⟩, mode⟩],
        ?_, ?_, .softmax rfl rfl, .cons (.softmax hd (by simp) rfl) (.nil _), rfl, ?_, fun g =>
          ⟨fun idx => softmax [k] x idx * (g idx - total [k] fun y => softmax [k] x (idx.headD 0 :: y) * g (idx.headD 0 :: y)), ?_, ?_⟩⟩
      · have : ActLayer.forward (ofFn [b, k] x) (⟨.softmax, inp⟩ : ActLayer ℝ) = (.ok (ofFn [b, k] (softmax [k] x)), ⟨.softmax, some (ofFn [b, k] x)⟩) :=
          Prod.ext (C27_forward hd (by simp) x) rfl
        simp only [forwardLayers, Layer.forward, Layer.onKind, this]
      · have : ActLayer.forward (ofFn [b, k] (columns υ x)) (⟨.softmax, inp'⟩ : ActLayer ℝ) =
            (.ok (ofFn [b, k] (columns υ (softmax [k] x))), ⟨.softmax, some (ofFn [b, k] (columns υ x))⟩) :=
          Prod.ext ((C27_forward hd (by simp) _).trans (congrArg Except.ok (ofFn_congr fun i hi => softmax_labels hυ x hi))) rfl
        simp only [forwardLayers, Layer.forward, Layer.onKind, this]
      · intro l hl
        rw [List.mem_singleton] at hl
        subst hl
        exact ready_of_none rfl
      · have : ActLayer.backward (ofFn [b, k] g) (⟨.softmax, some (ofFn [b, k] x)⟩ : ActLayer ℝ) = (.ok (ofFn [b, k] fun idx => softmax [k] x idx *
            (g idx - total [k] fun y => softmax [k] x (idx.headD 0 :: y) * g (idx.headD 0 :: y))), ⟨.softmax, some (ofFn [b, k] x)⟩) :=
          Prod.ext (softmaxBackward_real hd (by simp) x g) rfl
        simp only [backwardLayers, Layer.backward, Layer.onKind, this]
      · have : ActLayer.backward (ofFn [b, k] (columns υ g)) (⟨.softmax, some (ofFn [b, k] (columns υ x))⟩ : ActLayer ℝ) =
            (.ok (ofFn [b, k] (columns υ fun idx => softmax [k] x idx *
            (g idx - total [k] fun y => softmax [k] x (idx.headD 0 :: y) * g (idx.headD 0 :: y)))), ⟨.softmax, some (ofFn [b, k] (columns υ x))⟩) := by
          refine Prod.ext ((softmaxBackward_real hd (by simp) _ _).trans (congrArg Except.ok (ofFn_congr fun i hi => ?_))) rfl
          rw [softmax_labels hυ x hi]
          obtain ⟨a, c, rfl, ha, hc⟩ := valid2_iff.1 hi
          show softmax [k] x [a, υ c] * (g [a, υ c] - total [k] _) = softmax [k] x [a, υ c] * (g [a, υ c] - total [k] _)
          congr 2
          rw [total_row, total_row]
          simp only [List.headD_cons]
          refine Eq.trans ?_ (sum_reorder hυ fun j => softmax [k] x [a, j] * g [a, j])
          refine Finset.sum_congr rfl fun j hj => ?_
          rw [softmax_labels (b := b) hυ x (valid2_iff.2 ⟨a, j, rfl, ha, Finset.mem_range.1 hj⟩)]
          rfl
        simp only [backwardLayers, Layer.backward, Layer.onKind, this]

theorem end_update {es es' : List (Layer ℝ)} (he : SameEnd es es') (i : Nat) (opt : Optimizer (Nat × Bool) ℝ) :
    updateLayers i es opt = (.ok (), es, opt) ∧ updateLayers i es' opt = (.ok (), es', opt) := by
  cases he with
  | nothing => exact ⟨rfl, rfl⟩
  | softmax => exact ⟨rfl, rfl⟩

theorem append_update {ls es : List (Layer ℝ)} (opt : Optimizer (Nat × Bool) ℝ) (h : ∀ i opt, updateLayers i es opt = (.ok (), es, opt)) :
    updateLayers 0 (ls ++ es) opt = ((updateLayers 0 ls opt).1, (updateLayers 0 ls opt).2.1 ++ es, (updateLayers 0 ls opt).2.2) := by
  rw [updateLayers_append]
  rcases updateLayers 0 ls opt with ⟨e | u, l1, o1⟩
  · rfl
  · simp only [h]

section
variable {ρ : Type} {Rs : List Renaming} {σ υ : Nat → Nat} {ds : List Nat} {b k : Nat}

theorem labels_pass (E : Engine ρ ℝ) (net net' : Net ρ ℝ) (hc : Chain net.layers ds [b, k]) (ht : Relabelled Rs σ υ net net') (hυ : Reorders k υ) (x : List Nat → ℝ) :
    ∃ p ks ks' r', predict E (ofFn ds x) net = (.ok (ofFn [b, k] p), { net with layers := ks, rng := r' }) ∧
      predict E (ofFn ds (columns σ x)) net' = (.ok (ofFn [b, k] (columns υ p)), { net' with layers := ks', rng := r' }) ∧
      Relabelled Rs σ υ { net with layers := ks, rng := r' } { net' with layers := ks', rng := r' } ∧
      ∀ g, ∃ z js js' es es', backwardLayers ks (ofFn [b, k] g) = (.ok (ofFn ds z), js ++ es) ∧
        backwardLayers ks' (ofFn [b, k] (columns υ g)) = (.ok (ofFn ds (columns σ z)), js' ++ es') ∧
        Chain (js ++ es) ds [b, k] ∧ RenamedAll Rs σ υ js js' ∧ GradTwins Rs js js' ∧ SameEnd es es' ∧ (∀ l ∈ js ++ es, Ready l) ∧
        (js ++ es).map params = net.layers.map params := by
  obtain ⟨⟨ls, ls', es, es', e1, e2, e3, e4⟩, a2, a3, opt, opt', a4, a5, a6⟩ := ht
  rw [e1] at hc
  obtain ⟨ms, c1, c2⟩ := labels_split hc
  obtain ⟨rfl, -⟩ := end_step E e4 c2 hυ net.rng x
  obtain ⟨q, ks, ks', r', h1, h2, h3, h4, h5, h6⟩ := renamed_chain E e3 c1 net.rng x
  obtain ⟨-, p, us, us', k1, k2, k3, k4, k5, k6, k7⟩ := end_step E e4 c2 hυ r' q
  refine ⟨p, ks ++ us, ks' ++ us', r', ?_, ?_, ⟨⟨ks, ks', us, us', rfl, rfl, h4, k3⟩, a2, rfl, opt, opt', a4, a5, a6⟩, fun g => ?_⟩
  · unfold predict
    rw [e1, forwardLayers_append E h1, k1]
  · unfold predict
    have h2' : forwardLayers E ls' (ofFn ds (columns σ x)) net.rng = _ := h2
    rw [e2, a3, forwardLayers_append E h2']
    rw [show (ofFn [b, k] fun i => q (ren id υ i)) = ofFn [b, k] (columns υ q) from rfl, k2]
  · obtain ⟨z, b1, b2⟩ := k7 g
    obtain ⟨z', js, js', d1, d2, d3, d4, d5, d6, d7⟩ := h6 z
    refine ⟨z', js, js', us, us', ?_, ?_, labels_join d3 k4, d4, d5, k3, ?_, ?_⟩
    · rw [backwardLayers_append b1, d1]
    · rw [backwardLayers_append b2]
      rw [show (ofFn [b, k] (columns υ z)) = ofFn [b, k] fun i => z (ren id υ i) from rfl, d2]
      rfl
    · intro l hl
      rcases List.mem_append.1 hl with hl | hl
      · exact d6 l hl
      · exact k6 l hl
    · rw [e1, List.map_append, List.map_append, d7, k5]

theorem labels_step (E : Engine ρ ℝ) (net net' : Net ρ ℝ) (h : WellShaped net ds [b, k]) (ht : Relabelled Rs σ υ net net') (hυ : Reorders k υ) (x y : List Nat → ℝ) :
    ∃ v n1 n1', StepOk E (ofFn ds x) (ofFn [b, k] y) net n1 v ∧ StepOk E (ofFn ds (columns σ x)) (ofFn [b, k] (columns υ y)) net' n1' v ∧
      Relabelled Rs σ υ n1 n1' ∧ WellShaped n1 ds [b, k] := by
  obtain ⟨hc, ⟨L, hL, hfit⟩, opt, ho, hr⟩ := h
  obtain ⟨p, ks, ks', r', h1, h2, -, h6⟩ := labels_pass E net net' hc ht hυ x
  obtain ⟨-, a2, a3, opt₁, opt', a4, a5, a6⟩ := ht
  obtain rfl : opt₁ = opt := Option.some.inj (a4.symm.trans ho)
  obtain ⟨v, g, l1, l2, l3, l4⟩ := loss_labels hυ hfit p y
  obtain ⟨z, js, js', es, es', b1, b2, b3, b4, b5, b6, b7, b8⟩ := h6 g
  let net1 : Net ρ ℝ := { net with layers := ks, rng := r' }
  let net1' : Net ρ ℝ := { net' with layers := ks', rng := r' }
  let net2 : Net ρ ℝ := { net with layers := js ++ es, rng := r' }
  let net2' : Net ρ ℝ := { net' with layers := js' ++ es', rng := r' }
  have hready : NetReady net2 := ⟨b7, opt₁, ho, remembersFrom_params b8 hr⟩
  obtain ⟨u1, u2⟩ := C56_succeeds net2 hready
  obtain ⟨c1, c2, c3⟩ := C56_changes net2
  obtain ⟨-, opt'', o1, o2⟩ := u2
  obtain ⟨w1, w2, w3⟩ := renamed_updates (fr := frame Rs) b4 b5 0 (fun j c => by rw [Nat.zero_add]) a6
  have q := net_updateWeights_eq net2 opt₁ ho
  have q' := net_updateWeights_eq net2' opt' a5
  rw [show net2.layers = js ++ es from rfl, append_update opt₁ fun i o => (end_update b6 i o).1] at q
  rw [show net2'.layers = js' ++ es' from rfl, append_update opt' fun i o => (end_update b6 i o).2] at q'
  refine ⟨v, (updateWeights net2).2, (updateWeights net2').2,
    ⟨_, net1, L, _, ofFn ds z, net2, h1, hL, l1, l3, ?_, Prod.ext u1 rfl⟩,
    ⟨_, net1', L, _, ofFn ds (columns σ z), net2', h2, a2.trans hL, l2, l4, ?_, Prod.ext ?_ rfl⟩, ⟨?_, ?_, ?_, ?_⟩,
    ⟨updated_chain c1 b3, ⟨L, c2.trans hL, hfit⟩, opt'', o1, o2⟩⟩
  · show backward _ net1 = _
    unfold backward
    rw [show net1.layers = ks from rfl, b1]
  · show backward _ net1' = _
    unfold backward
    rw [show net1'.layers = ks' from rfl, b2]
  · rw [q] at u1
    rw [q']
    exact w1.symm.trans u1
  · rw [q, q']
    exact ⟨_, _, es, es', rfl, rfl, w2, b6⟩
  · rw [c2, (C56_changes net2').2.1]
    exact a2
  · rw [c3, (C56_changes net2').2.2]
  · rw [q, q']
    exact ⟨_, _, rfl, rfl, w3⟩

theorem labels_steps (E : Engine ρ ℝ) (hυ : Reorders k υ) (ps : List ((List Nat → ℝ) × (List Nat → ℝ))) :
    ∀ (net net' : Net ρ ℝ), WellShaped net ds [b, k] → Relabelled Rs σ υ net net' →
    ∃ vs n1 n1', Steps E (ps.map fun q => (ofFn ds q.1, ofFn [b, k] q.2)) net n1 vs ∧
      Steps E (ps.map fun q => (ofFn ds (columns σ q.1), ofFn [b, k] (columns υ q.2))) net' n1' vs ∧ Relabelled Rs σ υ n1 n1' ∧ WellShaped n1 ds [b, k] := by
  induction ps with
  | nil => exact fun net net' h ha => ⟨[], net, net', .nil net, .nil net', ha, h⟩
  | cons q ps ih =>
    intro net net' h ha
    obtain ⟨v, n1, n1', s1, s2, s3, s4⟩ := labels_step E net net' h ha hυ q.1 q.2
    obtain ⟨vs, j, j', t1, t2, t3, t4⟩ := ih n1 n1' s4 s3
    exact ⟨v :: vs, j, j', .cons s1 t1, .cons s2 t2, t3, t4⟩

theorem labels_epochs (E : Engine ρ ℝ) (hυ : Reorders k υ) (ps : List ((List Nat → ℝ) × (List Nat → ℝ))) (N : Nat) :
    ∀ (net net' : Net ρ ℝ), WellShaped net ds [b, k] → Relabelled Rs σ υ net net' →
    ∃ rs n1 n1', Epochs E (ps.map fun q => (ofFn ds q.1, ofFn [b, k] q.2)) N net n1 rs ∧
      Epochs E (ps.map fun q => (ofFn ds (columns σ q.1), ofFn [b, k] (columns υ q.2))) N net' n1' rs ∧ rs.length = N ∧ Relabelled Rs σ υ n1 n1' ∧
      WellShaped n1 ds [b, k] := by
  induction N with
  | zero => exact fun net net' h ha => ⟨[], net, net', .zero net, .zero net', rfl, ha, h⟩
  | succ N ih =>
    intro net net' h ha
    obtain ⟨vs, n1, n1', s1, s2, s3, s4⟩ := labels_steps E hυ ps net net' h ha
    obtain ⟨rs, j, j', t1, t2, t3, t4, t5⟩ := ih n1 n1' s4 s3
    have q := Epochs.succ s1 t1
    have q' := Epochs.succ s2 t2
    rw [List.length_map] at q q'
    exact ⟨_ :: rs, j, j', q, q', by simp [t3], t4, t5⟩

end

theorem keep_params {q : Nat} {σ τ : Nat → Nat} {ls ls' : List (Layer ℝ)} (h : RenamedAll (List.replicate q .keep) σ τ ls ls') :
    ls'.map params = ls.map params := by
  induction q generalizing σ ls ls' with
  | zero => cases h; rfl
  | succ q ih =>
    cases h with
    | cons a as =>
      rw [List.map_cons, List.map_cons, ih as]
      cases a <;> rfl

theorem end_params {es es' : List (Layer ℝ)} (h : SameEnd es es') : es'.map params = es.map params := by
  cases h <;> rfl

theorem renamedAll_split {Rs Rs' : List Renaming} {σ τ : Nat → Nat} {ls ls' : List (Layer ℝ)} (h : RenamedAll (Rs ++ Rs') σ τ ls ls') :
    ∃ υ as as' bs bs', ls = as ++ bs ∧ ls' = as' ++ bs' ∧ as.length = Rs.length ∧ as'.length = Rs.length ∧ RenamedAll Rs σ υ as as' ∧ RenamedAll Rs' υ τ bs bs' := by
  induction Rs generalizing σ ls ls' with
  | nil => exact ⟨σ, [], [], ls, ls', rfl, rfl, rfl, rfl, .nil σ, h⟩
  | cons R Rs ih =>
    cases h with
    | cons a hs =>
      obtain ⟨υ, as, as', bs, bs', rfl, rfl, h3, h4, h5, h6⟩ := ih hs
      exact ⟨υ, _ :: as, _ :: as', bs, bs', rfl, rfl, by simp [h3], by simp [h4], .cons a h5, h6⟩

end SmartDNN
