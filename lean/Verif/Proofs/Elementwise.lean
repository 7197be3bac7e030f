import Verif.Proofs.MatmulDispatch

/-! `applyPair`, and shapes that differ only by leading 1-dimensions. -/

namespace SmartDNN
open Spec

theorem eq_of_le_prod_eq {a b : List Nat} (ha : ∀ d ∈ a, 0 < d) (hle : List.Forall₂ (· ≤ ·) a b)
    (h : b.prod ≤ a.prod) : a = b := by
  induction hle with
  | nil => rfl
  | @cons d e a b hde hab ih =>
    rw [List.prod_cons, List.prod_cons] at h
    have h1 : a.prod ≤ b.prod := prod_le_of_le hab
    have h2 : 0 < a.prod := prod_pos_of (fun x hx => ha x (by simp [hx]))
    have hd : 0 < d := ha d (by simp)
    have h3 : d = e := by
      by_contra hne
      have : (d + 1) * a.prod ≤ e * b.prod := Nat.mul_le_mul (by omega) h1
      rw [Nat.succ_mul] at this
      omega
    subst h3
    rw [ih (fun x hx => ha x (by simp [hx])) (Nat.le_of_mul_le_mul_left h hd)]

theorem eq_ones_of_prod {l : List Nat} (hp : ∀ d ∈ l, 0 < d) (h : l.prod ≤ 1) : l = List.replicate l.length 1 := by
  induction l with
  | nil => rfl
  | cons d l ih =>
    rw [List.prod_cons] at h
    have h1 : 0 < l.prod := prod_pos_of (fun x hx => hp x (by simp [hx]))
    have hd : 0 < d := hp d (by simp)
    have h2 : l.prod ≤ 1 := by
      have := Nat.le_mul_of_pos_left l.prod hd
      omega
    have h3 : d ≤ 1 := by
      have := Nat.le_mul_of_pos_right d h1
      omega
    have h4 : d = 1 := by omega
    rw [List.length_cons, List.replicate_succ, ← ih (fun x hx => hp x (by simp [hx])) h2, h4]

theorem indices_ones_append (n : Nat) (a : List Nat) :
    indices (List.replicate n 1 ++ a) = (indices a).map (fun i => List.replicate n 0 ++ i) := by
  induction n with
  | zero => simp
  | succ n ih =>
    rw [List.replicate_succ, List.cons_append, indices_one_cons, ih, List.map_map]
    rfl

variable {T : Type}

theorem stretch_same_size {a r : List Nat} (h : Stretches a r) (ha : ∀ d ∈ a, 0 < d) (hr : ∀ d ∈ r, 0 < d)
    (hsz : r.prod = a.prod) (f : List Nat → T) :
    (indices r).map (fun idx => f (proj a idx)) = (indices a).map f := by
  have hf := stretches_split h
  set n := r.length - a.length with hn
  have hsplit : r = r.take n ++ r.drop n := (List.take_append_drop n r).symm
  have hle : List.Forall₂ (· ≤ ·) a (r.drop n) := by
    refine List.forall₂_iff_get.2 ⟨hf.length_eq, fun i h1 h2 => ?_⟩
    have h3 := (List.forall₂_iff_get.1 hf).2 i h1 h2
    have h4 := hr _ (List.mem_of_mem_drop (List.get_mem (r.drop n) ⟨i, h2⟩))
    omega
  have h1 : a.prod ≤ (r.drop n).prod := prod_le_of_le hle
  have h2 : 0 < (r.take n).prod := prod_pos_of (fun d hd => hr d (List.mem_of_mem_take hd))
  have h3 : (r.take n).prod * (r.drop n).prod = a.prod := by
    rw [← List.prod_append, ← hsplit, hsz]
  have h4 : 0 < a.prod := prod_pos_of ha
  have h5 : (r.drop n).prod ≤ a.prod := by
    have := Nat.le_mul_of_pos_left (r.drop n).prod h2
    omega
  have h6 := eq_of_le_prod_eq ha hle h5
  have h7 : (r.take n).prod ≤ 1 := by
    rw [← h6] at h3
    exact Nat.le_of_mul_le_mul_right (by omega : (r.take n).prod * a.prod ≤ 1 * a.prod) h4
  have h8 := eq_ones_of_prod (fun d hd => hr d (List.mem_of_mem_take hd)) h7
  rw [hsplit, ← h6, h8, indices_ones_append, List.map_map]
  apply List.map_congr_left
  intro i hi
  simp only [Function.comp]
  have hv := mem_indices.1 hi
  have : proj a (List.replicate (r.take n).length 0 ++ i) = proj a i := by
    unfold proj
    rw [List.length_append, hv.length, List.length_replicate, Nat.add_sub_cancel, Nat.sub_self, List.drop_zero,
      List.drop_left' (by simp)]
  rw [this, proj_self hv]

theorem applyPair_ofFn [Zero T] (ds : List Nat) (f g : List Nat → T) (φ : T → T → T) :
    (ofFn ds f).applyPair (ofFn ds g) φ = .ok (ofFn ds (fun i => φ (f i) (g i))) := by
  unfold Tensor.applyPair
  have : ((ofFn ds f).shape.beq (ofFn ds g).shape) = true := by simp [Shape.beq]
  simp only [this, Bool.not_true, Bool.false_eq_true, if_false]
  have h2 := forN_fill (ds := ds) (fun _ => (0 : T)) (fun i => φ (f i) (g i))
    (fun i => do
      let x ← (ofFn ds f).get (i : Nat)
      let y ← (ofFn ds g).get (i : Nat)
      return φ x y) (by
      intro idx hv
      rw [get_ofFn f hv, get_ofFn g hv]
      rfl)
  simp only [bind_assoc, Except.pure_eq', Except.bind_ok'] at h2
  rw [ofFn_shape, zeros_shapeOf, shapeOf_size]
  exact h2

theorem applyPair_err [Zero T] {a b : List Nat} (h : a ≠ b) (f g : List Nat → T) (φ : T → T → T) :
    (ofFn a f).applyPair (ofFn b g) φ = .error .invalidArgument := by
  unfold Tensor.applyPair
  have : ((ofFn a f).shape.beq (ofFn b g).shape) = false := by
    simp only [Shape.beq, ofFn_shape, shapeOf_dims, beq_eq_false_iff_ne, ne_eq]
    exact fun h2 => h (ints_inj h2)
  simp only [this, Bool.not_false, if_true]
  rfl

/-! ### Element-wise products of equal shapes -/

theorem mul_same {T : Type} [Zero T] [Mul T] {ds : List Nat} (hd : Dims ds) (f g : List Nat → T) :
    (ofFn ds f).mul (ofFn ds g) = .ok (ofFn ds (fun i => f i * g i)) := by
  unfold Tensor.mul
  rw [binop_ofFn _ hd hd (compat_self ds), bdims_self hd.pos]
  congr 1
  apply ofFn_congr
  intro idx hv
  rw [proj_self hv]

theorem sub_same {T : Type} [Zero T] [Sub T] {ds : List Nat} (hd : Dims ds) (f g : List Nat → T) :
    (ofFn ds f).sub (ofFn ds g) = .ok (ofFn ds (fun i => f i - g i)) := by
  unfold Tensor.sub
  rw [binop_ofFn _ hd hd (compat_self ds), bdims_self hd.pos]
  congr 1
  apply ofFn_congr
  intro idx hv
  rw [proj_self hv]

theorem add_same {T : Type} [Zero T] [Add T] {ds : List Nat} (hd : Dims ds) (f g : List Nat → T) :
    (ofFn ds f).add (ofFn ds g) = .ok (ofFn ds (fun i => f i + g i)) := by
  unfold Tensor.add
  rw [binop_ofFn _ hd hd (compat_self ds), bdims_self hd.pos]
  congr 1
  apply ofFn_congr
  intro idx hv
  rw [proj_self hv]

end SmartDNN
