import Verif.Props.Train
import Verif.Props.MaxPool
import Verif.Props.Dropout
import Verif.Props.Losses

/-!
# Lemmas for the type-safety theorems (C67)
-/

namespace SmartDNN
open Net Spec

/-! ### Max pooling never fails on a fitting input, whatever the elements -/

theorem pool_forward_ok {n c h w p s : Nat} (hd : Dims [n, c, h, w]) (hp : 0 < p) (hs : 0 < s)
    (hph : p ≤ h ∨ p - h < s) (hpw : p ≤ w ∨ p - w < s) (f : List Nat → ℝ) (ninf : ℝ) (inp : Option (Tensor ℝ)) :
    ∃ m, MaxPool.forward (ofFn [n, c, h, w] f) ⟨p, s, 0, ninf, inp⟩ =
        (.ok (ofFn [n, c, poolOut p s h, poolOut p s w] m), ⟨p, s, 0, ninf, some (ofFn [n, c, h, w] f)⟩) := by
  obtain ⟨m, h, -⟩ := pool_greatest hd hp hs hph hpw f ninf inp
  exact ⟨m, h⟩

theorem pool_backward_ok {n c h w p s : Nat} (hd : Dims [n, c, h, w]) (hp : 0 < p)
    (f g : List Nat → ℝ) (ninf : ℝ) :
    ∃ r, MaxPool.backward (ofFn [n, c, poolOut p s h, poolOut p s w] g) ⟨p, s, 0, ninf, some (ofFn [n, c, h, w] f)⟩ =
        (.ok (ofFn [n, c, h, w] r), ⟨p, s, 0, ninf, some (ofFn [n, c, h, w] f)⟩) := by
  have hh := hd.pos h (by simp)
  have hw := hd.pos w (by simp)
  have hdo := dims_poolOut (s := s) hd hp
  have hex : ∀ idx, ∃ rt : List Nat, ∀ i j oh ow, idx = [i, j, oh, ow] → ValidIdx [n, c, poolOut p s h, poolOut p s w] idx →
      ∃ v y x, (⟨p, s, 0, ninf, some (ofFn [n, c, h, w] f)⟩ : MaxPool ℝ).findMax (ofFn [n, c, h, w] f) i j oh ow =
          .ok (v, ((y : Nat) : Int), ((x : Nat) : Int)) ∧ rt = [i, j, y, x] ∧ ValidIdx [n, c, h, w] [i, j, y, x] := by
    intro idx
    by_cases hv : ValidIdx [n, c, poolOut p s h, poolOut p s w] idx
    · obtain ⟨i, j, oh, ow, rfl, hi, hj, hoh, how⟩ := valid4_iff.1 hv
      obtain ⟨r, h1, h2⟩ := findMax_ofFn (p := p) (s := s) (oh := oh) (ow := ow) hd f ninf
        (some (ofFn [n, c, h, w] f)) hi hj
      rcases h2 with ⟨h2, -⟩ | ⟨y, x, h2, -, h4⟩
      · refine ⟨[i, j, 0, 0], ?_⟩
        intro i' j' oh' ow' he _
        simp only [List.cons.injEq, and_true] at he
        obtain ⟨rfl, rfl, rfl, rfl⟩ := he
        subst h2
        exact ⟨_, 0, 0, h1, rfl, valid4_iff.2 ⟨_, _, _, _, rfl, hi, hj, hh, hw⟩⟩
      · refine ⟨[i, j, y, x], ?_⟩
        intro i' j' oh' ow' he _
        simp only [List.cons.injEq, and_true] at he
        obtain ⟨rfl, rfl, rfl, rfl⟩ := he
        subst h2
        exact ⟨_, y, x, h1, rfl, valid4_iff.2 ⟨_, _, _, _, rfl, hi, hj, h4.1.2.2.1, h4.1.2.2.2.2.2⟩⟩
    · exact ⟨[], fun _ _ _ _ _ h => (hv h).elim⟩
  choose route hr using hex
  exact ⟨_, unpool_route hd hdo f g ninf route fun i j oh ow hv => hr _ i j oh ow rfl hv⟩

/-! ### Elementwise activations -/

theorem act_forward_ok (a : Act ℝ) (ha : a ≠ .softmax) (ds : List Nat) (f : List Nat → ℝ) :
    ∃ y, a.forward (ofFn ds f) = .ok (ofFn ds y) := by
  cases a with
  | softmax => exact (ha rfl).elim
  | _ =>
    simp only [Act.forward, Tensor.apply, map_ofFn]
    exact ⟨_, rfl⟩

theorem act_backward_ok (a : Act ℝ) (ha : a ≠ .softmax) {ds : List Nat} (hd : Dims ds) (f g : List Nat → ℝ) :
    ∃ y, a.backward (ofFn ds f) (ofFn ds g) = .ok (ofFn ds y) := by
  cases a with
  | softmax => exact (ha rfl).elim
  | relu =>
    obtain ⟨D, -, -, h⟩ := C25_relu_backward hd f g
    exact ⟨_, h⟩
  | leakyRelu alpha =>
    obtain ⟨D, -, -, h⟩ := C25_leaky_backward_partial alpha ds f g
    exact ⟨_, h⟩
  | sigmoid =>
    obtain ⟨D, -, h⟩ := C26_backward (a := .sigmoid) rfl hd f g
    exact ⟨_, h⟩
  | tanh =>
    obtain ⟨D, -, h⟩ := C26_backward (a := .tanh) rfl hd f g
    exact ⟨_, h⟩
  | swish =>
    obtain ⟨D, -, h⟩ := C26_backward (a := .swish) rfl hd f g
    exact ⟨_, h⟩
  | mish =>
    obtain ⟨D, -, h⟩ := C26_backward (a := .mish) rfl hd f g
    exact ⟨_, h⟩

end SmartDNN
