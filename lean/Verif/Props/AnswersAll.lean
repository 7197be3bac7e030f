import Verif.Proofs.AnswersAll

/-!
# Data of the wrong shape, with batch normalisation and padded pooling (C99)
-/

namespace SmartDNN
open Net Spec

/-! ### Padded pooling -/

theorem padded_forward {ds : List Nat} (hd : Dims ds) {p s q : Nat} (hp : 0 < p) (hs : 0 < s) (hq : 0 < q) (x : List Nat → ℝ) (ninf : ℝ) (inp : Option (Tensor ℝ)) :
    ∃ e, (MaxPool.forward (ofFn ds x) ⟨p, s, q, ninf, inp⟩).1 = .error e ∧ e.isException = true := by
  by_cases hr : ds.length = 4
  · match ds, hr, hd with
    | [n, c, h, w], _, hd =>
      by_cases hk : (p ≤ h ∨ p - h < s) ∧ (p ≤ w ∨ p - w < s)
      · rw [C42_padding_refuted hd hp hs hq hk.1 hk.2]
        exact ⟨_, rfl, rfl⟩
      · refine ⟨.invalidArgument, ?_, rfl⟩
        unfold MaxPool.forward
        rw [if_neg (by simp), Mut.modify_bind, Mut.get_bind, Mut.lift_apply]
        show MaxPool.pool ⟨p, s, q, ninf, some (ofFn [n, c, h, w] x)⟩ (ofFn [n, c, h, w] x) = _
        unfold MaxPool.pool MaxPool.outDim
        rw [show (ofFn [n, c, h, w] x).shape.get 0 = .ok (n : Int) from rfl,
            show (ofFn [n, c, h, w] x).shape.get 1 = .ok (c : Int) from rfl,
            show (ofFn [n, c, h, w] x).shape.get 2 = .ok (h : Int) from rfl,
            show (ofFn [n, c, h, w] x).shape.get 3 = .ok (w : Int) from rfl]
        simp only [Except.bind_ok']
        rw [if_neg (by omega), if_neg (by omega)]
        simp only [Except.bind_ok']
        rw [make_error]
        · rfl
        · rintro ⟨-, hp⟩
          have key : ∀ k : Nat, 0 < ((k : Int) - p).tdiv s + 1 → p ≤ k ∨ p - k < s := by
            intro k hk
            by_contra hcon
            push Not at hcon
            obtain ⟨q1, q2⟩ := hcon
            have h1 : ((k : Int) - p).tdiv s = -(((p - k : Nat) : Int).tdiv s) := by
              rw [← Int.neg_tdiv]
              congr 1
              omega
            have h2 : ((p - k : Nat) : Int).tdiv s = ((p - k) / s : Nat) := by
              rw [← Int.ofNat_tdiv]
            have h3 : 1 ≤ (p - k) / s := (Nat.one_le_div_iff hs).2 q2
            omega
          exact hk ⟨key h (hp _ (by simp)), key w (hp _ (by simp))⟩
  · refine ⟨.runtimeError, ?_, rfl⟩
    unfold MaxPool.forward
    rw [if_pos (by simpa using hr)]
    rfl

/-! ### One layer and all layers -/

theorem norm_answer {D C : Nat → List Nat} {G F : Nat} (h : NormKind D C) : (FullPlan.norm F).answer (D G) =
    if G = F ∨ F = 1 then .accepts (D G) else if G = 1 then .accepts (D F) else .throws := by
  cases h <;> rfl

theorem norm_outcome {D C : Nat → List Nat} {G F : Nat} (h : NormKind D C) (hd : Dims (D G)) (hf : Dims [1, F])
    (hes : ∀ es, (FullPlan.norm F).answer (D G) = .accepts es → Dims es) (mode : Bool) (l : BatchNorm ℝ)
    {γ β m v : List Nat → ℝ} (hγ : l.gamma = ofFn [1, F] γ) (hβ : l.beta = ofFn [1, F] β)
    (hm : l.runningMean = ofFn [1, F] m) (hv : l.runningVariance = ofFn [1, F] v) (f : List Nat → ℝ) :
    Outcome (BatchNorm.forward mode (ofFn (D G) f) l).1 ((FullPlan.norm F).answer (D G)) := by
  have hG : 0 < G := hd.pos G (by cases h <;> simp)
  have hF : 0 < F := hf.pos F (by simp)
  rw [norm_answer h] at hes ⊢
  have hmax : (G = F ∨ G = 1 ∨ F = 1) → Dims (D (max G F)) := by
    intro hc
    by_cases h1 : G = F ∨ F = 1
    · rw [show max G F = G by omega]; exact hd
    · rw [show max G F = F by omega]
      exact hes _ (by rw [if_neg h1, if_pos (by omega)])
  obtain ⟨k1, k2⟩ := norm_forward h hd hf hmax mode l hγ hβ hm hv f
  by_cases h1 : G = F ∨ F = 1
  · obtain ⟨g, e⟩ := k1 (by omega)
    rw [if_pos h1]
    rw [show max G F = G by omega] at e
    exact ⟨g, e⟩
  · rw [if_neg h1]
    by_cases h2 : G = 1
    · obtain ⟨g, e⟩ := k1 (by omega)
      rw [if_pos h2]
      rw [show max G F = F by omega] at e
      exact ⟨g, e⟩
    · rw [if_neg h2]
      exact ⟨_, k2 (by omega), rfl⟩

theorem full_step {ρ : Type} {l : Layer ℝ} {p : FullPlan} (h : FollowsFull l p) (E : Engine ρ ℝ) (r : ρ) {ds : List Nat}
    (hd : Dims ds) (hroom : p.room ds) (hes : ∀ es, p.answer ds = .accepts es → Dims es) (x : List Nat → ℝ) :
    Outcome (Layer.forward E (ofFn ds x) (l, r)).1 (p.answer ds) := by
  cases h with
  | plain h =>
    obtain ⟨-, -, -, h2, -⟩ := follows_step h E r hd hroom hes x
    exact h2
  | @norm F γ β m v l mode hf hγ hβ hm hv =>
    show Outcome (BatchNorm.forward mode (ofFn ds x) l).1 _
    by_cases h2 : ds.length = 2
    · match ds, h2 with
      | [n, G], _ => exact norm_outcome (.two n) hd hf hes mode l hγ hβ hm hv x
    · by_cases h4 : ds.length = 4
      · match ds, h4 with
        | [n, G, a, b], _ => exact norm_outcome (.four n a b) hd hf hes mode l hγ hβ hm hv x
      · rw [C45_rejects mode _ l (by simpa using h2) (by simpa using h4)]
        have : (FullPlan.norm F).answer ds = .throws := by
          match ds, h2, h4 with
          | [], _, _ => rfl
          | [_], _, _ => rfl
          | [_, _], h, _ => exact absurd rfl h
          | [_, _, _], _, _ => rfl
          | [_, _, _, _], _, h => exact absurd rfl h
          | _ :: _ :: _ :: _ :: _ :: _, _, _ => rfl
        rw [this]
        exact ⟨_, rfl, rfl⟩
  | @padded p s q ninf inp mode hp hs hq => exact padded_forward hd hp hs hq x ninf inp

theorem full_dims : ∀ {ps : List FullPlan} {ds : List Nat}, FullPlan.HasRoom ps ds → Dims ds
  | [], _, h => h
  | _ :: _, _, h => h.1

theorem full_run {ρ : Type} (E : Engine ρ ℝ) {ls : List (Layer ℝ)} {ps : List FullPlan} (h : List.Forall₂ FollowsFull ls ps) :
    ∀ {ds : List Nat} (r : ρ) (x : List Nat → ℝ), FullPlan.HasRoom ps ds → Outcome (forwardLayers E ls (ofFn ds x) r).1 (FullPlan.run ps ds) := by
  induction h with
  | nil => intro ds r x _; exact ⟨x, rfl⟩
  | @cons l p ls ps hl hls ih =>
    intro ds r x hf
    obtain ⟨hd, hroom, hnext⟩ := hf
    have f2 := full_step hl E r hd hroom (fun es ha => full_dims (hnext es ha)) x
    rw [forwardLayers_cons]
    rcases hfw : Layer.forward E (ofFn ds x) (l, r) with ⟨res, l', r'⟩
    rw [hfw] at f2
    simp only at f2
    rw [FullPlan.run]
    rcases ha : p.answer ds with es | _ | _
    · rw [ha] at f2
      obtain ⟨y, rfl⟩ := f2
      have := ih r' y (hnext es ha)
      rcases hfl : forwardLayers E ls (ofFn es y) r' with ⟨res, st⟩
      rw [hfl] at this
      simp only [hfl]
      exact this
    · rw [ha] at f2
      obtain ⟨e, rfl, he⟩ := f2
      exact ⟨e, rfl, he⟩
    · rw [ha] at f2
      cases f2
      rfl

/-! ### The property -/

variable {ρ : Type}

/-- **C99.** `predict` on data of any dimensions does what the table says, for models that may contain batch normalisation, in either mode, and padded pooling anywhere. -/
theorem C99_predict_all (E : Engine ρ ℝ) (net : Net ρ ℝ) {ps : List FullPlan} (h : List.Forall₂ FollowsFull net.layers ps) {ds : List Nat}
    (hf : FullPlan.HasRoom ps ds) (x : List Nat → ℝ) : Outcome (predict E (ofFn ds x) net).1 (FullPlan.run ps ds) := by
  have h1 := full_run E h net.rng x hf
  unfold predict
  rcases hfl : forwardLayers E net.layers (ofFn ds x) net.rng with ⟨res, st⟩
  rw [hfl] at h1
  exact h1

/-- So it never runs into undefined behaviour. -/
theorem C99_predict_all_defined (E : Engine ρ ℝ) (net : Net ρ ℝ) {ps : List FullPlan} (h : List.Forall₂ FollowsFull net.layers ps)
    {ds : List Nat} (hf : FullPlan.HasRoom ps ds) (x : List Nat → ℝ) :
    (predict E (ofFn ds x) net).1 ≠ .error .ub ∧ (predict E (ofFn ds x) net).1 ≠ .error .diverge := by
  have h1 := C99_predict_all E net h hf x
  rcases hr : FullPlan.run ps ds with es | _ | _
  · rw [hr] at h1
    obtain ⟨f, h1⟩ := h1
    rw [h1]
    exact ⟨nofun, nofun⟩
  · rw [hr] at h1
    obtain ⟨e, h1, h2⟩ := h1
    rw [h1]
    exact ⟨by rintro ⟨⟩; (cases h2), by rintro ⟨⟩; (cases h2)⟩
  · rw [hr] at h1
    rw [show (predict E (ofFn ds x) net).1 = .error .abort from h1]
    exact ⟨nofun, nofun⟩

/-- Wrong numbers of features are not always reported: batch normalisation for several features takes a batch with one feature and answers with all its features, and
batch normalisation for one feature takes any batch.  All other wrong numbers of features are rejected. -/
theorem C99_features_refuted (E : Engine ρ ℝ) (net : Net ρ ℝ) {F : Nat} (h : List.Forall₂ FollowsFull net.layers [.norm F]) {n G : Nat} (hd : Dims [n, G]) (hF : Dims [n, F])
    (x : List Nat → ℝ) :
    (G = 1 → ∃ y, (predict E (ofFn [n, G] x) net).1 = .ok (ofFn [n, F] y)) ∧ (F = 1 → ∃ y, (predict E (ofFn [n, G] x) net).1 = .ok (ofFn [n, G] y)) ∧
    (G ≠ F → G ≠ 1 → F ≠ 1 → ∃ e, (predict E (ofFn [n, G] x) net).1 = .error e ∧ e.isException = true) := by
  have hroom : FullPlan.HasRoom [.norm F] [n, G] := by
    refine ⟨hd, trivial, fun es he => ?_⟩
    simp only [FullPlan.answer] at he
    split at he
    · cases he; exact hd
    · split at he
      · cases he; exact hF
      · cases he
  have key := C99_predict_all E net h hroom x
  simp only [FullPlan.run, FullPlan.answer] at key
  refine ⟨fun h1 => ?_, fun h1 => ?_, fun h1 h2 h3 => ?_⟩
  · subst h1
    by_cases h2 : 1 = F ∨ F = 1
    · rw [if_pos h2] at key
      have : F = 1 := by omega
      subst this
      exact key
    · rw [if_neg h2, if_pos rfl] at key
      exact key
  · rw [if_pos (Or.inr h1)] at key
    exact key
  · rw [if_neg (by omega), if_neg h2] at key
    exact key

/-- Hypotheses of the theorems are met: a dense layer for 3 inputs and 4 outputs with batch normalisation of 4 features behind it, given a batch of 2 samples with 3
numbers (accepted) and one with 5 (rejected). -/
example : ∃ l : BatchNorm ℝ, BatchNorm.new 4 (1 / 100) (9 / 10) 0 = .ok l ∧
    List.Forall₂ FollowsFull [⟨.fc { weights := ofFn [3, 4] fun _ => 1, biases := ofFn [1, 4] fun _ => 0 }, true⟩, ⟨.batchNorm l, true⟩] [.plain (.dense 3 4), .norm 4] ∧
    FullPlan.run [.plain (.dense 3 4), .norm 4] [2, 3] = .accepts [2, 4] ∧ FullPlan.run [.plain (.dense 3 4), .norm 4] [2, 5] = .throws ∧
    FullPlan.HasRoom [.plain (.dense 3 4), .norm 4] [2, 3] := by
  have d : ∀ {ds : List Nat}, ds ≠ [] → (∀ a ∈ ds, 0 < a) → ds.prod < 2 ^ 31 → Dims ds := fun a b c => ⟨a, b, c⟩
  obtain ⟨l, h1, -, -, -, h2, h3, h4, h5⟩ := C45_constructed 4 (d (by simp) (by simp) (by simp)) (1 / 100 : ℝ) (9 / 10) 0
  refine ⟨l, h1, .cons (.plain (.dense (d (by simp) (by simp) (by simp)) rfl rfl)) (.cons (.norm (d (by simp) (by simp) (by simp)) h2 h3 h4 h5) .nil), rfl, rfl, ?_⟩
  refine ⟨d (by simp) (by simp) (by simp), trivial, fun es he => ?_⟩
  cases he
  refine ⟨d (by simp) (by simp) (by simp), trivial, fun es he => ?_⟩
  cases he
  exact d (by simp) (by simp) (by simp)

end SmartDNN
