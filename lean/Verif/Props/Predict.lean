import Verif.Model.Network
import Verif.Props.Dense
import Verif.Spec.RealFns

/-!
# predict (C52)
-/

namespace SmartDNN
open Net Spec

section
variable {ρ T : Type} [Zero T] [One T] [Add T] [Sub T] [Mul T] [Div T] [Neg T] [NatCast T] [IntCast T]
  [LT T] [DecidableLT T] [LE T] [DecidableLE T] [DecidableEq T] [MathFn T]

/-- Layers `0 … k-1` of `ls`, called in order on `xs 0`, return `xs 1`, …, `xs k`, move the random engine
through `rs 0`, …, `rs k` and become the corresponding layers of `ls'`. -/
def Spec.LayersRun (E : Engine ρ T) (ls ls' : List (Layer T)) (xs : Nat → Tensor T) (rs : Nat → ρ) (k : Nat) : Prop :=
  ∀ i < k, ∃ l l', ls[i]? = some l ∧ ls'[i]? = some l' ∧
    Layer.forward E (xs i) (l, rs i) = (.ok (xs (i + 1)), (l', rs (i + 1)))


theorem layersRun_cons {E : Engine ρ T} {l l' : Layer T} {ls ls' : List (Layer T)} {xs : Nat → Tensor T} {rs : Nat → ρ}
    {x : Tensor T} {r : ρ} {k : Nat} (h0 : Layer.forward E x (l, r) = (.ok (xs 0), (l', rs 0)))
    (h : LayersRun E ls ls' xs rs k) :
    LayersRun E (l :: ls) (l' :: ls') (fun i => Nat.casesOn i x xs) (fun i => Nat.casesOn i r rs) (k + 1) := by
  intro i hi
  cases i with
  | zero => exact ⟨l, l', rfl, rfl, h0⟩
  | succ i =>
    obtain ⟨a, a', h1, h2, h3⟩ := h i (by omega)
    exact ⟨a, a', by simpa using h1, by simpa using h2, h3⟩

theorem layersRun_tail {E : Engine ρ T} {l l' : Layer T} {ls ls' : List (Layer T)} {xs : Nat → Tensor T} {rs : Nat → ρ}
    {k : Nat} (h : LayersRun E (l :: ls) (l' :: ls') xs rs (k + 1)) :
    LayersRun E ls ls' (fun i => xs (i + 1)) (fun i => rs (i + 1)) k := by
  intro i hi
  obtain ⟨a, a', h1, h2, h3⟩ := h (i + 1) (by omega)
  exact ⟨a, a', by simpa using h1, by simpa using h2, h3⟩

theorem layersRun_head {E : Engine ρ T} {l l' : Layer T} {ls ls' : List (Layer T)} {xs : Nat → Tensor T} {rs : Nat → ρ}
    {k : Nat} (h : LayersRun E (l :: ls) (l' :: ls') xs rs (k + 1)) :
    Layer.forward E (xs 0) (l, rs 0) = (.ok (xs 1), (l', rs 1)) := by
  obtain ⟨a, a', h1, h2, h3⟩ := h 0 (by omega)
  simp only [List.getElem?_cons_zero, Option.some.injEq] at h1 h2
  rw [h1, h2]
  exact h3

theorem forwardLayers_ok_iff (E : Engine ρ T) (ls : List (Layer T)) (x y : Tensor T) (r r' : ρ) (ls' : List (Layer T)) :
    forwardLayers E ls x r = (.ok y, ls', r') ↔
      ls'.length = ls.length ∧ ∃ (xs : Nat → Tensor T) (rs : Nat → ρ), xs 0 = x ∧ xs ls.length = y ∧ rs 0 = r ∧
        rs ls.length = r' ∧ LayersRun E ls ls' xs rs ls.length := by
  induction ls generalizing x r ls' with
  | nil =>
    simp only [forwardLayers, Prod.mk.injEq, Except.ok.injEq, List.length_nil]
    constructor
    · rintro ⟨rfl, rfl, rfl⟩
      exact ⟨rfl, fun _ => x, fun _ => r, rfl, rfl, rfl, rfl, fun i hi => by omega⟩
    · rintro ⟨h1, xs, rs, rfl, rfl, rfl, rfl, -⟩
      exact ⟨rfl, (List.length_eq_zero_iff.1 h1).symm, rfl⟩
  | cons l ls ih =>
    unfold forwardLayers
    constructor
    · intro h
      rcases hf : Layer.forward E x (l, r) with ⟨res, l1, r1⟩
      rw [hf] at h
      cases res with
      | error e => simp at h
      | ok z =>
        simp only at h
        rcases hg : forwardLayers E ls z r1 with ⟨res2, ls2, r2⟩
        rw [hg] at h
        simp only [Prod.mk.injEq] at h
        obtain ⟨rfl, rfl, rfl⟩ := h
        obtain ⟨hl, xs, rs, h1, h2, h3, h4, h5⟩ := (ih z r1 ls2).1 hg
        refine ⟨by simp [hl], fun i => Nat.casesOn i x xs, fun i => Nat.casesOn i r rs, rfl, h2, rfl, h4, ?_⟩
        exact layersRun_cons (by rw [h1, h3]; exact hf) h5
    · rintro ⟨hl, xs, rs, rfl, rfl, rfl, rfl, h⟩
      cases ls' with
      | nil => simp at hl
      | cons l' ls' =>
        rw [List.length_cons] at h
        rw [layersRun_head h]
        simp only
        rw [(ih (xs 1) (rs 1) ls').2 ⟨by simpa using hl, fun i => xs (i + 1), fun i => rs (i + 1), rfl, rfl, rfl, rfl,
          layersRun_tail h⟩]

theorem forwardLayers_error_iff (E : Engine ρ T) (ls : List (Layer T)) (x : Tensor T) (e : Err) (r r' : ρ) (ls' : List (Layer T)) :
    forwardLayers E ls x r = (.error e, ls', r') ↔
      ls'.length = ls.length ∧ ∃ (k : Nat) (xs : Nat → Tensor T) (rs : Nat → ρ) (l l' : Layer T),
        xs 0 = x ∧ rs 0 = r ∧ LayersRun E ls ls' xs rs k ∧
        ls[k]? = some l ∧ ls'[k]? = some l' ∧ Layer.forward E (xs k) (l, rs k) = (.error e, (l', r')) ∧
        ∀ i, k < i → ls'[i]? = ls[i]? := by
  induction ls generalizing x r ls' with
  | nil =>
    constructor
    · intro h
      simp [forwardLayers] at h
    · rintro ⟨-, k, xs, rs, l, l', -, -, -, h, -⟩
      simp at h
  | cons l ls ih =>
    unfold forwardLayers
    constructor
    · intro h
      rcases hf : Layer.forward E x (l, r) with ⟨res, l1, r1⟩
      rw [hf] at h
      cases res with
      | error e1 =>
        simp only [Prod.mk.injEq, Except.error.injEq] at h
        obtain ⟨rfl, rfl, rfl⟩ := h
        refine ⟨rfl, 0, fun _ => x, fun _ => r, l, l1, rfl, rfl, fun i hi => by omega, rfl, rfl, hf, ?_⟩
        intro i hi
        cases i with
        | zero => omega
        | succ i => rfl
      | ok z =>
        simp only at h
        rcases hg : forwardLayers E ls z r1 with ⟨res2, ls2, r2⟩
        rw [hg] at h
        simp only [Prod.mk.injEq] at h
        obtain ⟨rfl, rfl, rfl⟩ := h
        obtain ⟨hl, k, xs, rs, a, a', h1, h2, h3, h4, h5, h6, h7⟩ := (ih z r1 ls2).1 hg
        refine ⟨by simp [hl], k + 1, fun i => Nat.casesOn i x xs, fun i => Nat.casesOn i r rs, a, a', rfl, rfl,
          layersRun_cons (by rw [h1, h2]; exact hf) h3, h4, h5, h6, ?_⟩
        intro i hi
        cases i with
        | zero => omega
        | succ i => simpa using h7 i (by omega)
    · rintro ⟨hl, k, xs, rs, a, a', rfl, rfl, h, h4, h5, h6, h7⟩
      cases ls' with
      | nil => simp at hl
      | cons l' ls' =>
        cases k with
        | zero =>
          simp only [List.getElem?_cons_zero, Option.some.injEq] at h4 h5
          subst h4 h5
          rw [h6]
          simp only [Prod.mk.injEq, List.cons.injEq, and_true, true_and]
          exact List.ext_getElem? fun i => (by simpa using (h7 (i + 1) (by omega)).symm)
        | succ k =>
          rw [layersRun_head h]
          simp only
          rw [(ih (xs 1) (rs 1) ls').2 ⟨by simpa using hl, k, fun i => xs (i + 1), fun i => rs (i + 1), a, a', rfl, rfl,
            layersRun_tail h, by simpa using h4, by simpa using h5, h6, fun i hi => by simpa using h7 (i + 1) (by omega)⟩]

/-- `predict(x)` returns `y` exactly when the layers, called once each in insertion order, each on the result
of the one before and the first on `x`, all return and the last result is `y`.  Loss, optimizer and the list
of layers (up to the layers' own state) are unchanged. -/
theorem C52_returns (E : Engine ρ T) (x y : Tensor T) (net net' : Net ρ T) :
    predict E x net = (.ok y, net') ↔
      ∃ (xs : Nat → Tensor T) (rs : Nat → ρ), xs 0 = x ∧ xs net.layers.length = y ∧ rs 0 = net.rng ∧
        LayersRun E net.layers net'.layers xs rs net.layers.length ∧
        net'.layers.length = net.layers.length ∧ net'.rng = rs net.layers.length ∧
        net'.loss = net.loss ∧ net'.optimizer = net.optimizer := by
  unfold predict
  rcases hf : forwardLayers E net.layers x net.rng with ⟨res, ls', r'⟩
  simp only [Prod.mk.injEq]
  constructor
  · rintro ⟨rfl, rfl⟩
    obtain ⟨hl, xs, rs, h1, h2, h3, h4, h5⟩ := (forwardLayers_ok_iff E _ x y _ r' ls').1 hf
    exact ⟨xs, rs, h1, h2, h3, h5, hl, h4.symm, rfl, rfl⟩
  · rintro ⟨xs, rs, h1, h2, h3, h4, h5, h6, h7, h8⟩
    have := (forwardLayers_ok_iff E net.layers x y net.rng net'.rng net'.layers).2 ⟨h5, xs, rs, h1, h2, h3, h6.symm, h4⟩
    rw [this] at hf
    simp only [Prod.mk.injEq] at hf
    obtain ⟨rfl, rfl, rfl⟩ := hf
    refine ⟨rfl, ?_⟩
    cases net
    cases net'
    simp only at h7 h8 ⊢
    rw [h7, h8]

/-- `predict(x)` throws `e` exactly when some layer `k` throws `e` after the earlier ones returned; the layers
behind it are not called and keep their state. -/
theorem C52_throws (E : Engine ρ T) (x : Tensor T) (e : Err) (net net' : Net ρ T) :
    predict E x net = (.error e, net') ↔
      ∃ (k : Nat) (xs : Nat → Tensor T) (rs : Nat → ρ) (l l' : Layer T), xs 0 = x ∧ rs 0 = net.rng ∧
        LayersRun E net.layers net'.layers xs rs k ∧
        net.layers[k]? = some l ∧ net'.layers[k]? = some l' ∧
        Layer.forward E (xs k) (l, rs k) = (.error e, (l', net'.rng)) ∧
        (∀ i, k < i → net'.layers[i]? = net.layers[i]?) ∧
        net'.layers.length = net.layers.length ∧ net'.loss = net.loss ∧ net'.optimizer = net.optimizer := by
  unfold predict
  rcases hf : forwardLayers E net.layers x net.rng with ⟨res, ls', r'⟩
  simp only [Prod.mk.injEq]
  constructor
  · rintro ⟨rfl, rfl⟩
    obtain ⟨hl, k, xs, rs, l, l', h1, h2, h3, h4, h5, h6, h7⟩ := (forwardLayers_error_iff E _ x e _ r' ls').1 hf
    exact ⟨k, xs, rs, l, l', h1, h2, h3, h4, h5, h6, h7, hl, rfl, rfl⟩
  · rintro ⟨k, xs, rs, l, l', h1, h2, h3, h4, h5, h6, h7, hl, h8, h9⟩
    have := (forwardLayers_error_iff E net.layers x e net.rng net'.rng net'.layers).2
      ⟨hl, k, xs, rs, l, l', h1, h2, h3, h4, h5, h6, h7⟩
    rw [this] at hf
    simp only [Prod.mk.injEq] at hf
    obtain ⟨rfl, rfl, rfl⟩ := hf
    refine ⟨rfl, ?_⟩
    cases net
    cases net'
    simp only at h8 h9 ⊢
    rw [h8, h9]

/-- The empty model is the identity. -/
theorem C52_empty (E : Engine ρ T) (x : Tensor T) (net : Net ρ T) (h : net.layers = []) :
    predict E x net = (.ok x, net) := by
  unfold predict
  rw [h]
  cases net
  simp only at h
  subst h
  rfl

/-- `addLayer` puts the new layer behind all others: the longer model applies it to the shorter model's
result. -/
theorem C52_addLayer (E : Engine ρ T) (x y : Tensor T) (net net' : Net ρ T) (l : Layer T)
    (h : predict E x net = (.ok y, net')) :
    predict E x (addLayer l net) = ((Layer.forward E y (l, net'.rng)).1,
      { addLayer (Layer.forward E y (l, net'.rng)).2.1 net' with rng := (Layer.forward E y (l, net'.rng)).2.2 }) := by
  have app : ∀ (ls : List (Layer T)) (x : Tensor T) (r : ρ) (ls' : List (Layer T)) (r' : ρ),
      forwardLayers E ls x r = (.ok y, ls', r') →
      forwardLayers E (ls ++ [l]) x r = ((Layer.forward E y (l, r')).1, ls' ++ [(Layer.forward E y (l, r')).2.1],
        (Layer.forward E y (l, r')).2.2) := by
    intro ls
    induction ls with
    | nil =>
      intro x r ls' r' h
      simp only [forwardLayers, Prod.mk.injEq, Except.ok.injEq] at h
      obtain ⟨rfl, rfl, rfl⟩ := h
      simp only [List.nil_append, forwardLayers]
      rcases Layer.forward E x (l, r) with ⟨res, l1, r1⟩
      cases res <;> rfl
    | cons a ls ih =>
      intro x r ls' r' h
      simp only [List.cons_append, forwardLayers] at h ⊢
      rcases hf : Layer.forward E x (a, r) with ⟨res, l1, r1⟩
      rw [hf] at h
      cases res with
      | error e => simp at h
      | ok z =>
        simp only at h ⊢
        rcases hg : forwardLayers E ls z r1 with ⟨res2, ls2, r2⟩
        rw [hg] at h
        simp only [Prod.mk.injEq] at h
        obtain ⟨rfl, rfl, rfl⟩ := h
        rw [ih z r1 ls2 r2 hg]
        rfl
  unfold predict at h
  rcases hf : forwardLayers E net.layers x net.rng with ⟨res, ls', r'⟩
  rw [hf] at h
  simp only [Prod.mk.injEq] at h
  obtain ⟨rfl, rfl⟩ := h
  unfold predict addLayer
  simp only
  rw [app _ _ _ _ _ hf]

/-- `predict(list)` returns exactly when the single predictions, made in order, all return; the results are
in order. -/
theorem C52_list (E : Engine ρ T) (xs ys : List (Tensor T)) (net net' : Net ρ T) :
    predictAll E xs net = (.ok ys, net') ↔
      ys.length = xs.length ∧ ∃ nets : Nat → Net ρ T, nets 0 = net ∧ nets xs.length = net' ∧
        ∀ i < xs.length, ∃ x y, xs[i]? = some x ∧ ys[i]? = some y ∧ predict E x (nets i) = (.ok y, nets (i + 1)) := by
  induction xs generalizing net ys with
  | nil =>
    constructor
    · intro h
      replace h : ((.ok [], net) : Res (List (Tensor T)) × Net ρ T) = (.ok ys, net') := h
      simp only [Prod.mk.injEq, Except.ok.injEq] at h
      obtain ⟨rfl, rfl⟩ := h
      exact ⟨rfl, fun _ => net, rfl, rfl, fun i hi => by simp at hi⟩
    · rintro ⟨h, nets, rfl, rfl, -⟩
      rw [List.length_eq_zero_iff.1 h]
      rfl
  | cons x xs ih =>
    unfold predictAll
    rw [Mut.bind_apply]
    constructor
    · intro h
      rcases hp : predict E x net with ⟨res, net1⟩
      rw [hp] at h
      cases res with
      | error e => simp at h
      | ok y =>
        simp only at h
        rw [Mut.bind_apply] at h
        rcases hq : predictAll E xs net1 with ⟨res2, net2⟩
        rw [hq] at h
        cases res2 with
        | error e => simp at h
        | ok zs =>
          replace h : ((.ok (y :: zs), net2) : Res (List (Tensor T)) × Net ρ T) = (.ok ys, net') := h
          simp only [Prod.mk.injEq, Except.ok.injEq] at h
          obtain ⟨rfl, rfl⟩ := h
          obtain ⟨hl, nets, h1, h2, h3⟩ := (ih zs net1).1 hq
          refine ⟨by simp [hl], fun i => Nat.casesOn i net nets, rfl, h2, ?_⟩
          intro i hi
          cases i with
          | zero => exact ⟨x, y, rfl, rfl, by rw [← h1] at hp; exact hp⟩
          | succ i =>
            obtain ⟨a, b, e1, e2, e3⟩ := h3 i (by simpa using hi)
            exact ⟨a, b, by simpa using e1, by simpa using e2, e3⟩
    · rintro ⟨hl, nets, rfl, rfl, h⟩
      cases ys with
      | nil => simp at hl
      | cons y ys =>
        obtain ⟨a, b, e1, e2, e3⟩ := h 0 (by simp)
        simp only [List.getElem?_cons_zero, Option.some.injEq] at e1 e2
        subst e1 e2
        rw [e3]
        simp only
        rw [Mut.bind_apply, (ih ys (nets 1)).2 ⟨by simpa using hl, fun i => nets (i + 1), rfl, rfl, fun i hi => ?_⟩]
        · rfl
        · obtain ⟨a, b, e1, e2, e3⟩ := h (i + 1) (by simpa using hi)
          exact ⟨a, b, by simpa using e1, by simpa using e2, e3⟩

/-- `predict(list)` throws exactly when one of the predictions throws after the earlier ones returned; the
later inputs are not predicted. -/
theorem C52_list_throws (E : Engine ρ T) (xs : List (Tensor T)) (e : Err) (net net' : Net ρ T) :
    predictAll E xs net = (.error e, net') ↔
      ∃ (k : Nat) (nets : Nat → Net ρ T) (x : Tensor T), nets 0 = net ∧ xs[k]? = some x ∧
        (∀ i < k, ∃ x y, xs[i]? = some x ∧ predict E x (nets i) = (.ok y, nets (i + 1))) ∧
        predict E x (nets k) = (.error e, net') := by
  induction xs generalizing net with
  | nil =>
    constructor
    · intro h
      replace h : ((.ok [], net) : Res (List (Tensor T)) × Net ρ T) = (.error e, net') := h
      simp at h
    · rintro ⟨k, nets, x, -, h, -⟩
      simp at h
  | cons x xs ih =>
    unfold predictAll
    rw [Mut.bind_apply]
    constructor
    · intro h
      rcases hp : predict E x net with ⟨res, net1⟩
      rw [hp] at h
      cases res with
      | error e1 =>
        simp only [Prod.mk.injEq, Except.error.injEq] at h
        obtain ⟨rfl, rfl⟩ := h
        exact ⟨0, fun _ => net, x, rfl, rfl, fun i hi => by omega, hp⟩
      | ok y =>
        simp only at h
        rw [Mut.bind_apply] at h
        rcases hq : predictAll E xs net1 with ⟨res2, net2⟩
        rw [hq] at h
        cases res2 with
        | ok zs =>
          replace h : ((.ok (y :: zs), net2) : Res (List (Tensor T)) × Net ρ T) = (.error e, net') := h
          simp at h
        | error e1 =>
          simp only [Prod.mk.injEq, Except.error.injEq] at h
          obtain ⟨rfl, rfl⟩ := h
          obtain ⟨k, nets, z, h1, h2, h3, h4⟩ := (ih net1).1 hq
          refine ⟨k + 1, fun i => Nat.casesOn i net nets, z, rfl, by simpa using h2, ?_, h4⟩
          intro i hi
          cases i with
          | zero => exact ⟨x, y, rfl, by rw [← h1] at hp; exact hp⟩
          | succ i =>
            obtain ⟨a, b, e1, e3⟩ := h3 i (by omega)
            exact ⟨a, b, by simpa using e1, e3⟩
    · rintro ⟨k, nets, z, rfl, h2, h3, h4⟩
      cases k with
      | zero =>
        simp only [List.getElem?_cons_zero, Option.some.injEq] at h2
        subst h2
        rw [h4]
      | succ k =>
        obtain ⟨a, b, e1, e3⟩ := h3 0 (by omega)
        simp only [List.getElem?_cons_zero, Option.some.injEq] at e1
        subst e1
        rw [e3]
        simp only
        rw [Mut.bind_apply, (ih (nets 1)).2 ⟨k, fun i => nets (i + 1), z, rfl, by simpa using h2, fun i hi => ?_, h4⟩]
        obtain ⟨a, b, e1, e3⟩ := h3 (i + 1) (by omega)
        exact ⟨a, b, by simpa using e1, e3⟩

end

/-! A model of two dense layers predicts the composed affine map; a model whose first layer rejects its input
throws. -/

example {ρ : Type} (E : Engine ρ ℝ) (r : ρ) :
    ∃ y, (predict E (ofFn [2, 3] (fun i => (i.sum : ℝ)))
      (addLayer ⟨.fc { weights := ofFn [2, 4] (fun i => i.sum), biases := ofFn [1, 4] (fun _ => -1) }, true⟩
        (addLayer ⟨.fc { weights := ofFn [3, 2] (fun i => i.sum), biases := ofFn [1, 2] (fun _ => 7) }, true⟩
          (Net.new r)))).1 = .ok (ofFn [2, 4] y) := by
  simp only [predict, addLayer, Net.new, List.nil_append, List.cons_append, forwardLayers, Layer.forward, Layer.onKind]
  rw [C37_batch (n := 3) (m := 2) (by constructor <;> simp) _ _ _ _ rfl rfl]
  simp only
  rw [C37_batch (n := 2) (m := 4) (by constructor <;> simp) _ _ _ _ rfl rfl]
  exact ⟨_, rfl⟩

example {ρ : Type} (E : Engine ρ ℝ) (r : ρ) :
    (predict E (ofFn [3] (fun i => (i.sum : ℝ)))
      (addLayer ⟨.activation ⟨.relu, none⟩, true⟩ (addLayer ⟨.flatten {}, true⟩ (Net.new r)))).1 =
      .error .invalidArgument := rfl

end SmartDNN
