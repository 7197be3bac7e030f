import Verif.Proofs.SilentOn
import Verif.Spec.Silent

namespace SmartDNN
open Net Spec

/-- The positions of column `j` in the buffer of a matrix. -/
def colOf (n h j : Nat) (p : Nat) : Prop := ∃ i, i < n ∧ p = ravel [n, h] [i, j]

/-- The positions of row `j` in the buffer of a matrix. -/
def rowOf (h k j : Nat) (p : Nat) : Prop := ∃ c, c < k ∧ p = ravel [h, k] [j, c]

theorem valid_two {a b i j : Nat} (hi : i < a) (hj : j < b) : ValidIdx [a, b] [i, j] := valid2.2 ⟨hi, hj⟩

theorem zeroOn_col {n h j : Nat} (hj : j < h) {g : List Nat → ℝ} (hg : ∀ i < n, g [i, j] = 0) : ZeroOn (colOf n h j) (ofFn [n, h] g).data := by
  rintro _ ⟨i, hi, rfl⟩
  rw [List.getD_eq_getElem?_getD, ofFn_getElem? _ _ (valid_two hi hj), hg i hi]
  rfl

theorem zeroOn_row {h k j : Nat} (hj : j < h) {g : List Nat → ℝ} (hg : ∀ c < k, g [j, c] = 0) : ZeroOn (rowOf h k j) (ofFn [h, k] g).data := by
  rintro _ ⟨c, hc, rfl⟩
  rw [List.getD_eq_getElem?_getD, ofFn_getElem? _ _ (valid_two hj hc), hg c hc]
  rfl

theorem sameOn_col {n h j : Nat} (hj : j < h) {f g : List Nat → ℝ} (hs : SameOn (colOf n h j) (ofFn [n, h] f).data (ofFn [n, h] g).data) :
    ∀ i < n, g [i, j] = f [i, j] := by
  intro i hi
  have := hs _ ⟨i, hi, rfl⟩
  rw [ofFn_getElem? _ _ (valid_two hi hj), ofFn_getElem? _ _ (valid_two hi hj)] at this
  exact Option.some.inj this

theorem sameOn_row {h k j : Nat} (hj : j < h) {f g : List Nat → ℝ} (hs : SameOn (rowOf h k j) (ofFn [h, k] f).data (ofFn [h, k] g).data) :
    ∀ c < k, g [j, c] = f [j, c] := by
  intro c hc
  have := hs _ ⟨c, hc, rfl⟩
  rw [ofFn_getElem? _ _ (valid_two hj hc), ofFn_getElem? _ _ (valid_two hj hc)] at this
  exact Option.some.inj this

theorem layer_update_otherOn {i : Nat} {key : Nat × Bool} {S : Nat → Prop} (hk : key.1 ≠ i) (l : Layer ℝ) (opt : Optimizer (Nat × Bool) ℝ)
    (hq : QuietOn opt key S) : QuietOn (Layer.updateWeights (i, false) (i, true) (l, opt)).2.2 key S := by
  have k0 : key ≠ (i, false) := fun h => hk (by rw [h])
  have k1 : key ≠ (i, true) := fun h => hk (by rw [h])
  rcases hp : params l with _ | p
  · have hn : ¬ Trainable l := by rw [params_trainable, hp]; rintro ⟨p, h⟩; cases h
    rw [C56_layer_other (i, false) (i, true) l opt hn]
    exact hq
  · rcases hg : grads l with _ | g
    · rw [C56_layer_missing (i, false) (i, true) l opt ((params_trainable l).2 ⟨p, hp⟩) (by rw [grads_iff, hg]; rintro ⟨g, h⟩; cases h)]
      exact hq
    · rw [(C56_layer_values (i, false) (i, true) l opt p g hp hg).2.2]
      exact optimizePair_otherOn k0 k1 opt _ _ _ _ hq

theorem updateLayers_othersOn : ∀ (ls : List (Layer ℝ)) (i : Nat) (opt : Optimizer (Nat × Bool) ℝ) (key : Nat × Bool) (S : Nat → Prop), key.1 < i →
    QuietOn opt key S → QuietOn (updateLayers i ls opt).2.2 key S := by
  intro ls
  induction ls with
  | nil => intro i opt key m _ h; exact h
  | cons a ls ih =>
    intro i opt key m hi h
    unfold updateLayers
    have h1 := layer_update_otherOn (key := key) (S := m) (i := i) (by omega) a opt h
    rcases hu : Layer.updateWeights (i, false) (i, true) (a, opt) with ⟨e | u, a', opt'⟩
    · rw [hu] at h1
      exact h1
    · rw [hu] at h1
      exact ih (i + 1) opt' key m (by omega) h1

theorem fc_update_frozen {c : FC ℝ} {mode : Bool} {S0 S1 : Nat → Prop} {wg bg : Tensor ℝ} (hw : c.weightGradients = some wg)
    (hb : c.biasGradients = some bg) (z0 : ZeroOn S0 wg.data) (z1 : ZeroOn S1 bg.data) (i : Nat) (opt : Optimizer (Nat × Bool) ℝ)
    (q0 : QuietOn opt (i, false) S0) (q1 : QuietOn opt (i, true) S1) :
    (∃ c', (Layer.updateWeights (i, false) (i, true) ((⟨.fc c, mode⟩ : Layer ℝ), opt)).2.1 = ⟨.fc c', mode⟩ ∧
      SameOn S0 c.weights.data c'.weights.data ∧ SameOn S1 c.biases.data c'.biases.data) ∧
      QuietOn (Layer.updateWeights (i, false) (i, true) ((⟨.fc c, mode⟩ : Layer ℝ), opt)).2.2 (i, false) S0 ∧
      QuietOn (Layer.updateWeights (i, false) (i, true) ((⟨.fc c, mode⟩ : Layer ℝ), opt)).2.2 (i, true) S1 := by
  unfold Layer.updateWeights
  dsimp only
  rw [hw, hb]
  obtain ⟨r0, r1, s0, s1⟩ := optimizePair_frozenOn (by simp : ((i, false) : Nat × Bool) ≠ (i, true)) opt c.weights c.biases wg bg q0 q1 z0 z1
  exact ⟨⟨_, rfl, s0, s1⟩, r0, r1⟩

/-- `updateWeights` of a model and the parameters without gradient of the dense layer number `p`. -/
theorem updateLayers_frozen {S0 S1 : Nat → Prop} {wg bg : Tensor ℝ} {c : FC ℝ} {mode : Bool} (hw : c.weightGradients = some wg)
    (hb : c.biasGradients = some bg) (z0 : ZeroOn S0 wg.data) (z1 : ZeroOn S1 bg.data) : ∀ (ls : List (Layer ℝ)) (i p : Nat)
    (opt : Optimizer (Nat × Bool) ℝ), ls[p]? = some ⟨.fc c, mode⟩ → QuietOn opt (i + p, false) S0 → QuietOn opt (i + p, true) S1 →
    (∃ c', ((updateLayers i ls opt).2.1[p]? = some ⟨.fc c', mode⟩) ∧ SameOn S0 c.weights.data c'.weights.data ∧ SameOn S1 c.biases.data c'.biases.data) ∧
      QuietOn (updateLayers i ls opt).2.2 (i + p, false) S0 ∧ QuietOn (updateLayers i ls opt).2.2 (i + p, true) S1 := by
  intro ls
  induction ls with
  | nil => intro i p opt h; cases h
  | cons a ls ih =>
    intro i p opt h q0 q1
    unfold updateLayers
    cases p with
    | zero =>
      simp only [List.getElem?_cons_zero, Option.some.injEq] at h
      subst h
      obtain ⟨⟨c', e, s0, s1⟩, r0, r1⟩ := fc_update_frozen (mode := mode) hw hb z0 z1 i opt q0 q1
      rcases hu : Layer.updateWeights (i, false) (i, true) ((⟨.fc c, mode⟩ : Layer ℝ), opt) with ⟨e' | u, a', opt'⟩
      · rw [hu] at e r0 r1
        simp only at e
        subst e
        exact ⟨⟨c', rfl, s0, s1⟩, r0, r1⟩
      · rw [hu] at e r0 r1
        simp only at e
        subst e
        exact ⟨⟨c', rfl, s0, s1⟩, updateLayers_othersOn ls (i + 1) opt' _ _ (by simp) r0, updateLayers_othersOn ls (i + 1) opt' _ _ (by simp) r1⟩
    | succ p =>
      have h0 := layer_update_otherOn (key := (i + (p + 1), false)) (i := i) (by simp) a opt q0
      have h1 := layer_update_otherOn (key := (i + (p + 1), true)) (i := i) (by simp) a opt q1
      rcases hu : Layer.updateWeights (i, false) (i, true) (a, opt) with ⟨e | u, a', opt'⟩
      · rw [hu] at h0 h1
        exact ⟨⟨c, h, fun _ _ => rfl, fun _ _ => rfl⟩, h0, h1⟩
      · rw [hu] at h0 h1
        have := ih (i + 1) p opt' h (by rw [show i + 1 + p = i + (p + 1) by omega]; exact h0)
          (by rw [show i + 1 + p = i + (p + 1) by omega]; exact h1)
        rw [show i + 1 + p = i + (p + 1) by omega] at this
        exact this

theorem quietOn_fresh {K : Type} [DecidableEq K] {opt : Optimizer K ℝ} (h : Unregularised opt) (key : K) (S : Nat → Prop) : QuietOn opt key S := by
  cases h with
  | sgd o h => exact ⟨h, by intro t ht; cases ht⟩
  | rmsprop o h => exact ⟨h, by intro t ht; cases ht⟩
  | adam o h1 h2 => exact ⟨⟨h1, h2⟩, by intro t ht; cases ht⟩

theorem silent_chain_dense {l : FC ℝ} {m1 : Bool} {ls : List (Layer ℝ)} {b n h : Nat} {es : List Nat} {w : List Nat → ℝ}
    (hc : Chain (⟨.fc l, m1⟩ :: ls) [b, n] es) (hw : l.weights = ofFn [n, h] w) :
    Dims [b, n] ∧ Dims [n, h] ∧ Dims [b, h] ∧ (∃ bias, l.biases = ofFn [1, h] bias) ∧ Chain ls [b, h] es := by
  cases hc with
  | cons hl hls =>
    cases hl with
    | @dense _ _ m w2 bias _ _ h1 h2 h3 hlw hlb =>
      have : m = h := by
        have e := congrArg (fun t : Tensor ℝ => t.shape.dims) (hlw.symm.trans hw)
        simp only [ofFn_shape, shapeOf_dims] at e
        simpa using e
      subst this
      exact ⟨h1, h2, h3, ⟨_, hlb⟩, hls⟩

theorem chain_relu {a : ActLayer ℝ} {m : Bool} {ls : List (Layer ℝ)} {ds es : List Nat} (hc : Chain (⟨.activation a, m⟩ :: ls) ds es) (ha : a.activation = .relu) :
    Dims ds ∧ Chain ls ds es := by
  cases hc with
  | cons hl hls =>
    cases hl with
    | elementwise hd _ => exact ⟨hd, hls⟩
    | softmax hd hne h2 => rw [ha] at h2; cases h2

end SmartDNN
