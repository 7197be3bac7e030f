import Verif.Proofs.Labels

/-!
# The order of features and of classes does not matter (C116)
-/

namespace SmartDNN
open Net Spec

variable {ρ : Type}

/-- **C116, predictions.**  A relabelled model makes of relabelled data the relabelled predictions. -/
theorem C116_predict {Rs : List Renaming} {σ υ : Nat → Nat} {ds : List Nat} {b k : Nat} (E : Engine ρ ℝ) (net net' : Net ρ ℝ) (h : WellShaped net ds [b, k])
    (ht : Relabelled Rs σ υ net net') (hυ : Reorders k υ) (x : List Nat → ℝ) :
    ∃ y n1 n1', predict E (ofFn ds x) net = (.ok (ofFn [b, k] y), n1) ∧ predict E (ofFn ds (columns σ x)) net' = (.ok (ofFn [b, k] (columns υ y)), n1') ∧
      Relabelled Rs σ υ n1 n1' := by
  obtain ⟨p, ks, ks', r', h1, h2, h3, -⟩ := labels_pass E net net' h.1 ht hυ x
  exact ⟨p, _, _, h1, h2, h3⟩

/-- **C116, training.**  Training a model on some data and the relabelled model on the relabelled data succeeds for both, prints the same losses, and the
trained models are again relabelled versions of each other: in their weights, and in what their optimizers remember. -/
theorem C116_train {Rs : List Renaming} {σ υ : Nat → Nat} {ds : List Nat} {b k : Nat} (E : Engine ρ ℝ) (net net' : Net ρ ℝ) (h : WellShaped net ds [b, k])
    (ht : Relabelled Rs σ υ net net') (hυ : Reorders k υ) (data : List ((List Nat → ℝ) × (List Nat → ℝ))) (hne : data ≠ []) (epochs : Int) :
    ∃ rs n1 n1', trainCall E (data.map fun q => ofFn ds q.1) (data.map fun q => ofFn [b, k] q.2) epochs net = (.ok (), n1, rs) ∧
      trainCall E (data.map fun q => ofFn ds (columns σ q.1)) (data.map fun q => ofFn [b, k] (columns υ q.2)) epochs net' = (.ok (), n1', rs) ∧
      rs.length = epochs.toNat ∧ Relabelled Rs σ υ n1 n1' ∧ WellShaped n1 ds [b, k] := by
  have hn : ∀ f : (List Nat → ℝ) × (List Nat → ℝ) → Tensor ℝ, ((data.map f).length : ℝ) ≠ 0 := by
    intro f
    rw [Ne, Nat.cast_eq_zero, List.length_eq_zero_iff, List.map_eq_nil_iff]
    exact hne
  obtain ⟨rs, n1, n1', e1, e2, e3, e4, e5⟩ := labels_epochs E hυ data epochs.toNat net net' h ht
  refine ⟨rs, n1, n1', (C55_train E _ _ epochs net n1 rs (by simp) (hn _)).2 ?_, (C55_train E _ _ epochs net' n1' rs (by simp) (hn _)).2 ?_, e3, e4, e5⟩
  · rw [List.zip_map']
    exact e1
  · rw [List.zip_map']
    exact e2

/-- **C116, features.**  A model that begins with a dense layer, any layers behind, freshly compiled.  Permute the columns of the data and the rows of the first
weight matrix in the same way: training prints the same losses, gives the permuted first weights and the same parameters in all other layers, and the trained
model answers to permuted inputs what the other one answers. -/
theorem C116_features {n m b k : Nat} {σ : Nat → Nat} (hσ : Reorders n σ) (E : Engine ρ ℝ) (net : Net ρ ℝ) (l : FC ℝ) (mode : Bool) (rest : List (Layer ℝ))
    (hl : net.layers = ⟨.fc l, mode⟩ :: rest) (w : List Nat → ℝ) (hw : l.weights = ofFn [n, m] w) (h : WellShaped net [b, n] [b, k])
    {opt : Optimizer (Nat × Bool) ℝ} (ho : net.optimizer = some opt) (hf : FreshOptimizer opt)
    (data : List ((List Nat → ℝ) × (List Nat → ℝ))) (hne : data ≠ []) (epochs : Int) :
    ∃ rs n1 n1' l1 l1' mode' w1, trainCall E (data.map fun q => ofFn [b, n] q.1) (data.map fun q => ofFn [b, k] q.2) epochs net = (.ok (), n1, rs) ∧
      trainCall E (data.map fun q => ofFn [b, n] fun i => q.1 [i.getD 0 0, σ (i.getD 1 0)]) (data.map fun q => ofFn [b, k] q.2) epochs
        { net with layers := ⟨.fc { l with weights := ofFn [n, m] fun i => w [σ (i.getD 0 0), i.getD 1 0] }, mode⟩ :: rest } = (.ok (), n1', rs) ∧
      n1.layers[0]? = some ⟨.fc l1, mode'⟩ ∧ n1'.layers[0]? = some ⟨.fc l1', mode'⟩ ∧ l1.weights = ofFn [n, m] w1 ∧
      l1'.weights = ofFn [n, m] (fun i => w1 [σ (i.getD 0 0), i.getD 1 0]) ∧ l1'.biases = l1.biases ∧ (n1'.layers.drop 1).map params = (n1.layers.drop 1).map params ∧
      ∀ x : List Nat → ℝ, (predict E (ofFn [b, n] fun i => x [i.getD 0 0, σ (i.getD 1 0)]) n1').1 = (predict E (ofFn [b, n] x) n1).1 := by
  have hc := h.1
  rw [hl] at hc
  obtain ⟨bias, hb⟩ : ∃ bias, l.biases = ofFn [1, m] bias := by
    cases hc with
    | cons a _ =>
      cases a with
      | dense hx hdw hg hlw hlb =>
        have hd := ofFn_dims_inj (hw.symm.trans hlw)
        simp only [List.cons.injEq, and_true] at hd
        obtain ⟨-, rfl⟩ := hd
        exact ⟨_, hlb⟩
  set Rs : List Renaming := .units n m σ id :: List.replicate rest.length .keep with hRs
  set net' : Net ρ ℝ := { net with layers := ⟨.fc { l with weights := ofFn [n, m] fun i => w [σ (i.getD 0 0), i.getD 1 0] }, mode⟩ :: rest } with hnet
  have hcol : ∀ x : List Nat → ℝ, (ofFn [b, n] fun i => x [i.getD 0 0, σ (i.getD 1 0)]) = ofFn [b, n] (columns σ x) := fun x =>
    ofFn_congr fun i hi => by obtain ⟨a, c, rfl, -, -⟩ := valid2_iff.1 hi; rfl
  have hid : ∀ x : List Nat → ℝ, ofFn [b, k] (columns id x) = ofFn [b, k] x := fun x => congrArg (ofFn [b, k]) (funext fun i => congrArg x (ren_id i))
  have ht : Relabelled Rs σ id net net' := by
    refine ⟨⟨net.layers, net'.layers, [], [], by simp, by simp, ?_, .nothing⟩, rfl, rfl, opt, opt, ho, ho, fresh_twin hf⟩
    rw [hl]
    refine .cons (.dense hσ (id_reorders m) hw hb ?_ ?_) (renamedAll_same rest)
    · exact ofFn_congr fun i hi => by obtain ⟨a, c, rfl, -, -⟩ := valid2_iff.1 hi; rfl
    · exact hb.trans (congrArg (ofFn [1, m]) (funext fun i => (congrArg bias (ren_id i)).symm))
  obtain ⟨rs, n1, n1', t1, t2, -, t4, t5⟩ := C116_train E net net' h ht (id_reorders k) data hne epochs
  have t4' := t4
  obtain ⟨⟨ls, ls', es, es', e1, e2, e3, e4⟩, -⟩ := t4'
  rw [hRs] at e3
  cases e3 with
  | @cons _ _ _ τ _ l0 l0' ms ms' a as =>
    cases a with
    | @dense _ _ _ _ w1 b1 f f' mode' hs ht' hfw hfb hfw' hfb' =>
      have hcol' : (data.map fun q => ofFn [b, n] fun i => q.1 [i.getD 0 0, σ (i.getD 1 0)]) = data.map fun q => ofFn [b, n] (columns σ q.1) :=
        List.map_congr_left fun q _ => hcol q.1
      have hid' : (data.map fun q => ofFn [b, k] q.2) = data.map fun q => ofFn [b, k] (columns id q.2) := List.map_congr_left fun q _ => (hid q.2).symm
      refine ⟨rs, n1, n1', f, f', mode', w1, t1, ?_, by rw [e1]; rfl, by rw [e2]; rfl, hfw, ?_, ?_, ?_, fun x => ?_⟩
      · rw [hcol', hid']
        exact t2
      · exact hfw'.trans (ofFn_congr fun i hi => by obtain ⟨a, c, rfl, -, -⟩ := valid2_iff.1 hi; rfl)
      · rw [hfb', hfb]
        exact congrArg (ofFn [1, m]) (funext fun i => congrArg b1 (ren_id i))
      · rw [e1, e2]
        simp only [List.cons_append, List.drop_succ_cons, List.drop_zero, List.map_append]
        rw [keep_params as, end_params e4]
      · obtain ⟨y, k1, k1', p1, p2, -⟩ := C116_predict E n1 n1' t5 t4 (id_reorders k) x
        rw [hcol, p1, p2, hid]

/-- **C116, classes.**  A model that ends with a dense layer, or with a dense layer and softmax, freshly compiled.  Permute the columns of the targets and the
columns of the last weight matrix and biases in the same way: training prints the same losses, gives the permuted last weights and biases and the same
parameters in all other layers, and the trained model predicts the permuted values. -/
theorem C116_classes {n b k : Nat} {ds : List Nat} {υ : Nat → Nat} (hυ : Reorders k υ) (E : Engine ρ ℝ) (net : Net ρ ℝ) (l : FC ℝ) (mode : Bool)
    (pre es : List (Layer ℝ)) (hl : net.layers = pre ++ ⟨.fc l, mode⟩ :: es) (he : es = [] ∨ ∃ a m, a.activation = .softmax ∧ es = [⟨.activation a, m⟩])
    (w bias : List Nat → ℝ) (hw : l.weights = ofFn [n, k] w) (hb : l.biases = ofFn [1, k] bias) (h : WellShaped net ds [b, k])
    {opt : Optimizer (Nat × Bool) ℝ} (ho : net.optimizer = some opt) (hf : FreshOptimizer opt)
    (data : List ((List Nat → ℝ) × (List Nat → ℝ))) (hne : data ≠ []) (epochs : Int) :
    ∃ rs n1 n1' l1 l1' mode' w1 b1, trainCall E (data.map fun q => ofFn ds q.1) (data.map fun q => ofFn [b, k] q.2) epochs net = (.ok (), n1, rs) ∧
      trainCall E (data.map fun q => ofFn ds q.1) (data.map fun q => ofFn [b, k] fun i => q.2 [i.getD 0 0, υ (i.getD 1 0)]) epochs
        { net with layers := pre ++ ⟨.fc { l with
            weights := ofFn [n, k] fun i => w [i.getD 0 0, υ (i.getD 1 0)]
            biases := ofFn [1, k] fun i => bias [i.getD 0 0, υ (i.getD 1 0)] }, mode⟩ :: es } = (.ok (), n1', rs) ∧
      n1.layers[pre.length]? = some ⟨.fc l1, mode'⟩ ∧ n1'.layers[pre.length]? = some ⟨.fc l1', mode'⟩ ∧ l1.weights = ofFn [n, k] w1 ∧ l1.biases = ofFn [1, k] b1 ∧
      l1'.weights = ofFn [n, k] (fun i => w1 [i.getD 0 0, υ (i.getD 1 0)]) ∧ l1'.biases = ofFn [1, k] (fun i => b1 [i.getD 0 0, υ (i.getD 1 0)]) ∧
      (n1'.layers.take pre.length).map params = (n1.layers.take pre.length).map params ∧
      ∀ x : List Nat → ℝ, ∃ y, (predict E (ofFn ds x) n1).1 = .ok (ofFn [b, k] y) ∧
        (predict E (ofFn ds x) n1').1 = .ok (ofFn [b, k] fun i => y [i.getD 0 0, υ (i.getD 1 0)]) := by
  have he' : SameEnd es es := by
    rcases he with rfl | ⟨a, m, ha, rfl⟩
    · exact .nothing
    · exact .softmax ha ha
  set Rs : List Renaming := List.replicate pre.length .keep ++ [.units n k id υ] with hRs
  set net' : Net ρ ℝ := { net with layers := pre ++ ⟨.fc { l with
            weights := ofFn [n, k] fun i => w [i.getD 0 0, υ (i.getD 1 0)]
            biases := ofFn [1, k] fun i => bias [i.getD 0 0, υ (i.getD 1 0)] }, mode⟩ :: es } with hnet
  have hcol : ∀ (c : Nat) (x : List Nat → ℝ), (ofFn [c, k] fun i => x [i.getD 0 0, υ (i.getD 1 0)]) = ofFn [c, k] (columns υ x) := fun c x =>
    ofFn_congr fun i hi => by obtain ⟨a, c, rfl, -, -⟩ := valid2_iff.1 hi; rfl
  have hid : ∀ x : List Nat → ℝ, ofFn ds (columns id x) = ofFn ds x := fun x => congrArg (ofFn ds) (funext fun i => congrArg x (ren_id i))
  have ht : Relabelled Rs id υ net net' := by
    refine ⟨⟨pre ++ [⟨.fc l, mode⟩], pre ++ [⟨.fc { l with
            weights := ofFn [n, k] fun i => w [i.getD 0 0, υ (i.getD 1 0)]
            biases := ofFn [1, k] fun i => bias [i.getD 0 0, υ (i.getD 1 0)] }, mode⟩], es, es, by simp [hl], by simp [hnet], ?_, he'⟩, rfl, rfl, opt, opt, ho, ho,
      fresh_twin hf⟩
    refine renamedAll_append (renamedAll_same pre) (.cons (.dense (id_reorders n) hυ hw hb ?_ ?_) (.nil υ))
    · exact ofFn_congr fun i hi => by obtain ⟨a, c, rfl, -, -⟩ := valid2_iff.1 hi; rfl
    · exact ofFn_congr fun i hi => by obtain ⟨a, c, rfl, -, -⟩ := valid2_iff.1 hi; rfl
  obtain ⟨rs, n1, n1', t1, t2, -, t4, t5⟩ := C116_train E net net' h ht hυ data hne epochs
  have t4' := t4
  obtain ⟨⟨ls, ls', us, us', e1, e2, e3, e4⟩, -⟩ := t4'
  rw [hRs] at e3
  obtain ⟨τ, as, as', bs, bs', rfl, rfl, q1, q2, q3, q4⟩ := renamedAll_split e3
  rw [List.length_replicate] at q1 q2
  cases q4 with
  | cons a as2 =>
    cases as2
    cases a with
    | @dense _ _ _ _ w1 b1 f f' mode' hs ht' hfw hfb hfw' hfb' =>
      have hcol' : (data.map fun q => ofFn [b, k] fun i => q.2 [i.getD 0 0, υ (i.getD 1 0)]) = data.map fun q => ofFn [b, k] (columns υ q.2) :=
        List.map_congr_left fun q _ => hcol b q.2
      have hid' : (data.map fun q => ofFn ds q.1) = data.map fun q => ofFn ds (columns id q.1) := List.map_congr_left fun q _ => (hid q.1).symm
      refine ⟨rs, n1, n1', f, f', mode', w1, b1, t1, ?_, ?_, ?_, hfw, hfb, ?_, ?_, ?_, fun x => ?_⟩
      · rw [hcol', hid']
        exact t2
      · rw [e1, ← q1]; simp
      · rw [e2, ← q2]; simp
      · exact hfw'.trans (ofFn_congr fun i hi => by obtain ⟨a, c, rfl, -, -⟩ := valid2_iff.1 hi; rfl)
      · exact hfb'.trans (ofFn_congr fun i hi => by obtain ⟨a, c, rfl, -, -⟩ := valid2_iff.1 hi; rfl)
      · rw [e1, e2, List.append_assoc, List.append_assoc, List.take_append_of_le_length (by omega), List.take_append_of_le_length (by omega),
          List.take_of_length_le (by omega), List.take_of_length_le (by omega), keep_params q3]
      · obtain ⟨y, k1, k1', p1, p2, -⟩ := C116_predict E n1 n1' t5 t4 hυ x
        rw [hid] at p2
        exact ⟨y, by rw [p1], by rw [p2, hcol]⟩

/-- The hypotheses of the theorems above are met by a model of two dense layers and softmax with cross entropy and Adam, for two features that are swapped and
three classes that are rotated. -/
example (o : AdamOptions ℝ) (w b v c : List Nat → ℝ) :
    let net : Net Unit ℝ := Net.compile (.crossEntropy (1 / 10)) (.newAdam o) { layers :=
      [⟨.fc { weights := ofFn [2, 4] w, biases := ofFn [1, 4] b }, true⟩, ⟨.activation { activation := .tanh }, true⟩,
        ⟨.fc { weights := ofFn [4, 3] v, biases := ofFn [1, 3] c }, true⟩, ⟨.activation { activation := .softmax }, true⟩], rng := () }
    WellShaped net [5, 2] [5, 3] ∧ Reorders 2 (fun i => 1 - i) ∧ Reorders 3 (fun i => if i = 2 then 0 else i + 1) ∧
      ∃ opt, net.optimizer = some opt ∧ FreshOptimizer opt := by
  intro net
  have d : ∀ {ds : List Nat}, ds ≠ [] → (∀ a ∈ ds, 0 < a) → ds.prod < 2 ^ 31 → Dims ds := fun a b c => ⟨a, b, c⟩
  refine ⟨(C67_compiled (ds := [5, 2]) (es := [5, 3]) _ (.crossEntropy (1 / 10)) ?_ ⟨5, 3, rfl, d (by simp) (by simp) (by simp)⟩ ⟨0, 0, 0, 0, false⟩
    ⟨0, 0, 0, 0, false, 0⟩ o).2.2, ⟨?_, ?_⟩, ⟨?_, ?_⟩, ⟨_, rfl, Or.inr (Or.inr ⟨o, rfl⟩)⟩⟩
  · refine .cons (es := [5, 4]) (.dense (d (by simp) (by simp) (by simp)) (d (by simp) (by simp) (by simp)) (d (by simp) (by simp) (by simp)) rfl rfl) ?_
    refine .cons (es := [5, 4]) (.elementwise (d (by simp) (by simp) (by simp)) (by intro h; cases h)) ?_
    refine .cons (es := [5, 3]) (.dense (d (by simp) (by simp) (by simp)) (d (by simp) (by simp) (by simp)) (d (by simp) (by simp) (by simp)) rfl rfl) ?_
    exact .cons (es := [5, 3]) (.softmax (d (by simp) (by simp) (by simp)) (by simp) rfl) (.nil _)
  · intro i hi; dsimp only; omega
  · intro i hi j hj; dsimp only; omega
  · intro i hi; dsimp only; split_ifs <;> omega
  · intro i hi j hj h
    dsimp only at h
    split_ifs at h <;> omega

end SmartDNN
