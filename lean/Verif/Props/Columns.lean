import Verif.Proofs.Columns

/-!
# The outputs of one dense layer are learned separately (C120)
-/

namespace SmartDNN
open Net Spec

variable {ρ : Type}

/-- **C120, predictions.**  Models that correspond in output `j` give the same values for this output. -/
theorem C120_predict {j : Nat} {Rs : List Part} {ds es : List Nat} (E : Engine ρ ℝ) (net net' : Net ρ ℝ) (h : WellShaped net ds es)
    (ht : SameOutput j Rs net net') (x : List Nat → ℝ) :
    ∃ y y' k k', predict E (ofFn ds x) net = (.ok (ofFn es y), k) ∧ predict E (ofFn ds x) net' = (.ok (ofFn es y'), k') ∧
      (∀ i, ValidIdx es i → i.getD 1 0 = j → y' i = y i) ∧ SameOutput j Rs k k' ∧ WellShaped k ds es := by
  obtain ⟨a1, a2, a3, opt, opt', a4, a5, a6⟩ := ht
  obtain ⟨p, p', ks, ks', r', h1, h2, hn, h3, h4, h5, h6⟩ := aligned_chain E a1 h.1 net.rng x x ⟨fun _ => rfl, fun e => by cases e⟩
  have e : predict E (ofFn ds x) net = (.ok (ofFn es p), { net with layers := ks, rng := r' }) := by
    unfold predict
    rw [h1]
  obtain ⟨y, k, p1, -, p3⟩ := C67_predict E net h (ofFn ds x) ⟨x, rfl⟩
  obtain rfl : _ = k := congrArg Prod.snd (e.symm.trans p1)
  refine ⟨p, p', { net with layers := ks, rng := r' }, { net' with layers := ks', rng := r' }, e, ?_, hn.2 rfl, ⟨h4, a2, rfl, opt, opt', a4, a5, a6⟩, p3⟩
  unfold predict
  rw [a3, h2]

/-- **C120, training.**  Two models that correspond in output `j` are trained on the same inputs with targets that are the same for output `j`.  Both succeed, and the
trained models correspond in output `j` again, in its weights and bias and in what their optimizers remember about these. -/
theorem C120_train {j : Nat} {Rs : List Part} {ds es : List Nat} (E : Engine ρ ℝ) (net net' : Net ρ ℝ) (h : WellShaped net ds es)
    (ht : SameOutput j Rs net net') (ps : List ((List Nat → ℝ) × (List Nat → ℝ) × (List Nat → ℝ))) (hne : ps ≠ [])
    (hp : ∀ p ∈ ps, ∀ i, ValidIdx es i → i.getD 1 0 = j → p.2.2 i = p.2.1 i) (epochs : Int) :
    ∃ rs rs' k k', trainCall E (ps.map fun p => ofFn ds p.1) (ps.map fun p => ofFn es p.2.1) epochs net = (.ok (), k, rs) ∧
      trainCall E (ps.map fun p => ofFn ds p.1) (ps.map fun p => ofFn es p.2.2) epochs net' = (.ok (), k', rs') ∧
      SameOutput j Rs k k' ∧ WellShaped k ds es := by
  have hz : ∀ (f g : (List Nat → ℝ) × (List Nat → ℝ) × (List Nat → ℝ) → Tensor ℝ), (ps.map f).zip (ps.map g) = ps.map fun p => (f p, g p) :=
    fun f g => List.zip_map' ..
  have hn : ∀ f : (List Nat → ℝ) × (List Nat → ℝ) × (List Nat → ℝ) → Tensor ℝ, ((ps.map f).length : ℝ) ≠ 0 := fun f => by
    rw [Ne, Nat.cast_eq_zero, List.length_eq_zero_iff, List.map_eq_nil_iff]
    exact hne
  have hf : List.Forall₂ (ColumnData j ds es) (ps.map fun p => (ofFn ds p.1, ofFn es p.2.1)) (ps.map fun p => (ofFn ds p.1, ofFn es p.2.2)) := by
    rw [List.forall₂_map_left_iff, List.forall₂_map_right_iff]
    exact List.forall₂_same.2 fun p hq => ⟨p.1, p.2.1, p.2.2, rfl, rfl, hp p hq⟩
  obtain ⟨rs, rs', k, k', e1, e2, e3, e4⟩ := aligned_epochs (Rs := Rs) E hf epochs.toNat net net' h ht
  rw [← hz] at e1 e2
  exact ⟨rs, rs', k, k', (C55_train E _ _ epochs net k rs (by simp) (hn _)).2 e1, (C55_train E _ _ epochs net' k' rs' (by simp) (hn _)).2 e2, e3, e4⟩

/-! ### Models with one dense layer -/

theorem alignedAll_post {j : Nat} : ∀ post : List (Layer ℝ), (∀ l ∈ post, ∃ a mode, l = ⟨.activation a, mode⟩ ∧ a.activation ≠ .softmax) →
    AlignedAll j (List.replicate post.length .whole) true true post post := by
  intro post
  induction post with
  | nil => exact fun _ => .nil true
  | cons l post ih =>
    intro h
    obtain ⟨a, mode, rfl, ha⟩ := h l List.mem_cons_self
    exact .cons (.behind ha rfl) (ih fun x hx => h x (List.mem_cons_of_mem _ hx))

theorem alignedAll_pre {j : Nat} {Rs : List Part} {ms ms' : List (Layer ℝ)} (h : AlignedAll j Rs false true ms ms') :
    ∀ pre : List (Layer ℝ), (∀ l ∈ pre, params l = none) → AlignedAll j (List.replicate pre.length .whole ++ Rs) false true (pre ++ ms) (pre ++ ms') := by
  intro pre
  induction pre with
  | nil => exact fun _ => h
  | cons l pre ih => exact fun hp => .cons (.front l (hp l List.mem_cons_self)) (ih fun x hx => hp x (List.mem_cons_of_mem _ hx))

theorem fresh_aligned {j : Nat} {fr : Nat × Bool → Option (List Nat)} {opt : Optimizer (Nat × Bool) ℝ} (h : FreshOptimizer opt) : OptAligned j fr opt opt := by
  have e : ∀ f : Nat × Bool → Option (List Nat), MapAligned j f (fun _ => none) (fun _ => none) := fun f k => Or.inl ⟨rfl, rfl⟩
  rcases h with ⟨o, rfl⟩ | ⟨o, rfl⟩ | ⟨o, rfl⟩
  · exact ⟨rfl, e _⟩
  · exact ⟨rfl, e _, e _, e _⟩
  · exact ⟨rfl, rfl, rfl, e _, e _⟩

theorem alignedAll_get {j : Nat} {Rs : List Part} {s s' : Bool} {ls ls' : List (Layer ℝ)} (h : AlignedAll j Rs s s' ls ls') :
    ∀ {p : Nat} {R : Part}, Rs[p]? = some R → ∃ s s' l l', ls[p]? = some l ∧ ls'[p]? = some l' ∧ Aligned j R s s' l l' := by
  induction h with
  | nil => intro p R hp; simp at hp
  | cons a _ ih =>
    intro p R hp
    cases p with
    | zero =>
      simp only [List.getElem?_cons_zero, Option.some.injEq] at hp
      subst hp
      exact ⟨_, _, _, _, rfl, rfl, a⟩
    | succ p =>
      simp only [List.getElem?_cons_succ] at hp ⊢
      exact ih hp

/-- A call of `train`: inputs, targets for the first model, targets for the second, and the number of epochs. -/
abbrev Spec.TwoTargets := List ((List Nat → ℝ) × (List Nat → ℝ) × (List Nat → ℝ)) × Int

/-- The first model (`false`) or the second (`true`) after these calls. -/
noncomputable def Spec.trainedOn (E : Engine ρ ℝ) (ds es : List Nat) (second : Bool) (net : Net ρ ℝ) (cs : List TwoTargets) : Net ρ ℝ :=
  cs.foldl (fun net c => (trainCall E (c.1.map fun p => ofFn ds p.1) (c.1.map fun p => ofFn es (if second then p.2.2 else p.2.1)) c.2 net).2.1) net

theorem aligned_calls {j : Nat} {Rs : List Part} {ds es : List Nat} (E : Engine ρ ℝ) : ∀ (cs : List TwoTargets) {net net' : Net ρ ℝ}, WellShaped net ds es →
    SameOutput j Rs net net' → (∀ c ∈ cs, c.1 ≠ [] ∧ ∀ p ∈ c.1, ∀ i, ValidIdx es i → i.getD 1 0 = j → p.2.2 i = p.2.1 i) →
    WellShaped (trainedOn E ds es false net cs) ds es ∧ SameOutput j Rs (trainedOn E ds es false net cs) (trainedOn E ds es true net' cs) := by
  intro cs
  induction cs with
  | nil => exact fun h ht _ => ⟨h, ht⟩
  | cons c cs ih =>
    intro net net' h ht hp
    obtain ⟨h1, h2⟩ := hp c List.mem_cons_self
    obtain ⟨rs, rs', k, k', e1, e2, e3, e4⟩ := C120_train E net net' h ht c.1 h1 h2 c.2
    have a : trainedOn E ds es false net (c :: cs) = trainedOn E ds es false k cs := congrArg (fun q => trainedOn E ds es false q.2.1 cs) e1
    have b : trainedOn E ds es true net' (c :: cs) = trainedOn E ds es true k' cs := congrArg (fun q => trainedOn E ds es true q.2.1 cs) e2
    rw [a, b]
    exact ih e4 e3 fun d hd => hp d (List.mem_cons_of_mem _ hd)

/-- **C120.**  Two freshly compiled models have one dense layer, behind the same layers without parameters and in front of the same elementwise activations, with any loss
and any optimizer.  Their dense layers agree in the weights and bias of output `j`.  They are trained by any calls of `train`, on the same inputs, and with targets that
agree for output `j`; the other outputs' weights, biases and targets may differ in any way.  Afterwards the two models have the same weights and bias for output `j`, and
give the same answers for it, whatever they are asked: what the other outputs are, and what they are taught, makes no difference to output `j`. -/
theorem C120_outputs {ds : List Nat} {b n m j : Nat} (E : Engine ρ ℝ) (net : Net ρ ℝ) (pre post : List (Layer ℝ)) (l : FC ℝ) (mode : Bool)
    (hl : net.layers = pre ++ ⟨.fc l, mode⟩ :: post) (hpre : ∀ a ∈ pre, params a = none)
    (hpost : ∀ x ∈ post, ∃ a mode, x = ⟨.activation a, mode⟩ ∧ a.activation ≠ .softmax) (hwell : WellShaped net ds [b, m])
    (ho : ∀ opt, net.optimizer = some opt → FreshOptimizer opt) (w w' c c' : List Nat → ℝ) (hw : l.weights = ofFn [n, m] w) (hc : l.biases = ofFn [1, m] c)
    (l' : FC ℝ) (hw' : l'.weights = ofFn [n, m] w') (hc' : l'.biases = ofFn [1, m] c') (hj : j < m) (h1 : ∀ q, q < n → w' [q, j] = w [q, j]) (h2 : c' [0, j] = c [0, j])
    (cs : List TwoTargets) (hcs : ∀ d ∈ cs, d.1 ≠ [] ∧ ∀ p ∈ d.1, ∀ r, r < b → p.2.2 [r, j] = p.2.1 [r, j]) :
    let net₁ := trainedOn E ds [b, m] false net cs
    let net₂ := trainedOn E ds [b, m] true { net with layers := pre ++ ⟨.fc l', mode⟩ :: post } cs
    (∃ (f f' : FC ℝ) (md : Bool) (v v' e e' : List Nat → ℝ), net₁.layers[pre.length]? = some ⟨.fc f, md⟩ ∧ net₂.layers[pre.length]? = some ⟨.fc f', md⟩ ∧
      f.weights = ofFn [n, m] v ∧ f'.weights = ofFn [n, m] v' ∧ (∀ q, q < n → v' [q, j] = v [q, j]) ∧
      f.biases = ofFn [1, m] e ∧ f'.biases = ofFn [1, m] e' ∧ e' [0, j] = e [0, j]) ∧
    ∀ x, ∃ y y', (predict E (ofFn ds x) net₁).1 = .ok (ofFn [b, m] y) ∧ (predict E (ofFn ds x) net₂).1 = .ok (ofFn [b, m] y') ∧
      ∀ r, r < b → y' [r, j] = y [r, j] := by
  intro net₁ net₂
  obtain ⟨opt, hopt, -⟩ := hwell.2.2
  have hS : SameOutput j (List.replicate pre.length .whole ++ .column n m :: List.replicate post.length .whole) net
      { net with layers := pre ++ ⟨.fc l', mode⟩ :: post } := by
    refine ⟨?_, rfl, rfl, opt, opt, hopt, hopt, fresh_aligned (ho opt hopt)⟩
    rw [hl]
    refine alignedAll_pre (.cons (.dense ⟨w, w', hw, hw', fun i hv hi => ?_⟩ ⟨c, c', hc, hc', fun i hv hi => ?_⟩) (alignedAll_post post hpost)) pre hpre
    · obtain ⟨q, u, rfl, hq, hu⟩ := valid2_iff.1 hv
      obtain rfl : u = j := hi
      exact h1 q hq
    · obtain ⟨q, u, rfl, hq, hu⟩ := valid2_iff.1 hv
      obtain rfl : u = j := hi
      obtain rfl : q = 0 := by omega
      exact h2
  obtain ⟨k1, k2⟩ := aligned_calls E cs hwell hS fun d hd => ⟨(hcs d hd).1, fun p hp i hv hi => by
    obtain ⟨q, u, rfl, hq, hu⟩ := valid2_iff.1 hv
    obtain rfl : u = j := hi
    exact (hcs d hd).2 p hp q hq⟩
  refine ⟨?_, fun x => ?_⟩
  · obtain ⟨s, s', a, a', a1, a2, a3⟩ := alignedAll_get k2.1 (p := pre.length) (R := .column n m) (by
      rw [List.getElem?_append_right (by simp)]
      simp)
    cases a3 with
    | @dense _ _ f f' md hv he =>
    obtain ⟨v, v', v1, v2, v3⟩ := hv
    obtain ⟨e, e', e1, e2, e3⟩ := he
    exact ⟨f, f', md, v, v', e, e', a1, a2, v1, v2, fun q hq => v3 [q, j] (valid2_iff.2 ⟨_, _, rfl, hq, hj⟩) rfl, e1, e2,
      e3 [0, j] (valid2_iff.2 ⟨_, _, rfl, by omega, hj⟩) rfl⟩
  · obtain ⟨y, y', _, _, y1, y2, y3, -⟩ := C120_predict E _ _ k1 k2 x
    exact ⟨y, y', by rw [y1], by rw [y2], fun r hr => y3 [r, j] (valid2_iff.2 ⟨_, _, rfl, hr, hj⟩) rfl⟩

/-! ### A concrete model -/

/-- Hypotheses of `C120_outputs` are met: images of 2 × 2 pixels, flattened, with dropout, a dense layer with three outputs and a sigmoid, the cross entropy and Adam; the two
models have their own weights for outputs 0 and 2, and are taught different targets for these. -/
example (w c : List Nat → ℝ) (q : ℝ) (o : AdamOptions ℝ) :
    let l (d : ℝ) : FC ℝ := { weights := ofFn [4, 3] fun i => if i.getD 1 0 = 1 then w i else w i + d, biases := ofFn [1, 3] fun i => if i.getD 1 0 = 1 then c i else d }
    let pre : List (Layer ℝ) := [⟨.flatten ⟨none⟩, true⟩, ⟨.dropout { dropoutRate := q }, true⟩]
    let post : List (Layer ℝ) := [⟨.activation ⟨.sigmoid, none⟩, true⟩]
    let net : Net Unit ℝ := Net.compile (.crossEntropy (1 / 10)) (.newAdam o) ⟨pre ++ ⟨.fc (l 0), true⟩ :: post, none, none, ()⟩
    let y (d : ℝ) : List Nat → ℝ := fun i => if i.getD 1 0 = 1 then 1 else d
    let cs : List TwoTargets := [([(w, y 0, y 1), (c, y 1, y 0)], 7), ([(c, y 1, y 1)], 2)]
    WellShaped net [5, 1, 2, 2] [5, 3] ∧ net.layers = pre ++ ⟨.fc (l 0), true⟩ :: post ∧ (∀ a ∈ pre, params a = none) ∧
    (∀ x ∈ post, ∃ a mode, x = ⟨.activation a, mode⟩ ∧ a.activation ≠ .softmax) ∧ (∀ opt, net.optimizer = some opt → FreshOptimizer opt) ∧
    (∀ d ∈ cs, d.1 ≠ [] ∧ ∀ p ∈ d.1, ∀ r, r < 5 → p.2.2 [r, 1] = p.2.1 [r, 1]) ∧ y 0 [0, 0] ≠ y 1 [0, 0] := by
  intro l pre post net y cs
  have d : ∀ {ds : List Nat}, ds ≠ [] → (∀ a ∈ ds, 0 < a) → ds.prod < 2 ^ 31 → Dims ds := fun a b c => ⟨a, b, c⟩
  refine ⟨?_, rfl, ?_, ?_, ?_, ?_, ?_⟩
  · refine (C67_compiled (ds := [5, 1, 2, 2]) (es := [5, 3]) _ (.crossEntropy (1 / 10)) ?_ ⟨5, 3, rfl, d (by simp) (by simp) (by simp)⟩ ⟨0, 0, 0, 0, false⟩
      ⟨0, 0, 0, 0, false, 0⟩ o).2.2
    refine .cons (es := [5, 4]) (.flatten (d := 5) (ds := [1, 2, 2]) (d (by simp) (by simp) (by simp)) (by simp)) ?_
    refine .cons (es := [5, 4]) (.dropout (d (by simp) (by simp) (by simp))) ?_
    refine .cons (es := [5, 3]) (.dense (d (by simp) (by simp) (by simp)) (d (by simp) (by simp) (by simp)) (d (by simp) (by simp) (by simp)) rfl rfl) ?_
    exact .cons (es := [5, 3]) (.elementwise (d (by simp) (by simp) (by simp)) (by intro h; cases h)) (.nil _)
  · intro a ha
    simp only [pre, List.mem_cons, List.not_mem_nil, or_false] at ha
    rcases ha with rfl | rfl <;> rfl
  · intro x hx
    simp only [post, List.mem_cons, List.not_mem_nil, or_false] at hx
    exact ⟨_, _, hx, by intro h; cases h⟩
  · rintro _ ⟨⟩
    exact Or.inr (Or.inr ⟨o, rfl⟩)
  · intro e he
    simp only [cs, List.mem_cons, List.not_mem_nil, or_false] at he
    rcases he with rfl | rfl
    · refine ⟨by simp, fun p hp r _ => ?_⟩
      simp only [List.mem_cons, List.not_mem_nil, or_false] at hp
      rcases hp with rfl | rfl <;> rfl
    · refine ⟨by simp, fun p hp r _ => ?_⟩
      simp only [List.mem_cons, List.not_mem_nil, or_false] at hp
      rw [hp]
  · show (0 : ℝ) ≠ 1
    norm_num

end SmartDNN
