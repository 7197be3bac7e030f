import Verif.Model.Layers
import Verif.Spec.Layers
import Verif.Proofs.Losses
import Verif.Proofs.Calculus
import Verif.Props.Linear

/-!
# Lemmas about the fully connected layer
-/

namespace SmartDNN
open Spec

/-! ### Mut -/

section
variable {σ α β : Type}
theorem Mut.bind_apply (m : Mut σ α) (f : α → Mut σ β) (s : σ) :
    (m >>= f) s = match m s with
      | (.ok a, s') => f a s'
      | (.error e, s') => (.error e, s') := rfl
theorem Mut.lift_ok_bind (a : α) (f : α → Mut σ β) (s : σ) : (Mut.lift (.ok a) >>= f) s = f a s := rfl
theorem Mut.lift_error_bind (e : Err) (f : α → Mut σ β) (s : σ) :
    ((Mut.lift (.error e) : Mut σ α) >>= f) s = (.error e, s) := rfl
theorem Mut.modify_bind (g : σ → σ) (f : Unit → Mut σ β) (s : σ) : (Mut.modify g >>= f) s = f () (g s) := rfl
theorem Mut.get_bind (f : σ → Mut σ β) (s : σ) : (Mut.get >>= f) s = f s s := rfl
theorem Mut.set_bind (s' : σ) (f : Unit → Mut σ β) (s : σ) : (Mut.set s' >>= f) s = f () s' := rfl
theorem Mut.pure_apply (a : α) (s : σ) : (pure a : Mut σ α) s = (.ok a, s) := rfl
theorem Mut.lift_apply (r : Res α) (s : σ) : (Mut.lift r : Mut σ α) s = (r, s) := rfl
end

/-! ### Shapes -/

theorem dims_cons_one {ds : List Nat} (h : Dims ds) : Dims (1 :: ds) :=
  ⟨by simp, by simpa using h.pos, by simpa using h.lt⟩

theorem dims_tail {d e : Nat} {ds : List Nat} (h : Dims (d :: e :: ds)) : Dims (e :: ds) := by
  refine ⟨by simp, fun x hx => h.pos x (List.mem_cons_of_mem _ hx), ?_⟩
  have h1 := h.pos d (by simp)
  have h2 := h.lt
  rw [List.prod_cons] at h2
  exact lt_of_le_of_lt (Nat.le_mul_of_pos_left _ h1) h2

section
variable {T : Type}

theorem reindex_row {n : Nat} {idx : List Nat} (hv : ValidIdx [1, n] idx) : reindex [1, n] [n] idx = [idx.getD 1 0] := by
  obtain ⟨i, j, rfl, hi, hj⟩ := valid2_iff.1 hv
  rw [reindex_one (by simp) hv]
  have : i = 0 := by omega
  simp [ravel, this]

theorem ofFn_row {n : Nat} (f : List Nat → T) :
    (⟨shapeOf [1, n], (indices [n]).map f⟩ : Tensor T) = ofFn [1, n] (fun idx => f [idx.getD 1 0]) := by
  rw [reinterpret_ofFn (by simp)]
  exact ofFn_congr fun idx hv => by rw [reindex_row hv]

theorem ofFn_unrow {n : Nat} (f : List Nat → T) :
    (⟨shapeOf [n], (indices [1, n]).map f⟩ : Tensor T) = ofFn [n] (fun idx => f [0, idx.getD 0 0]) := by
  rw [reinterpret_ofFn (by simp)]
  refine ofFn_congr fun idx hv => ?_
  obtain ⟨i, rfl, hi⟩ := valid1_iff.1 hv
  congr 1
  unfold reindex
  have hv2 : ValidIdx [1, n] [0, i] := valid2_iff.2 ⟨0, i, rfl, by omega, hi⟩
  have := indices_ravel hv2
  simp only [ravel, List.prod_cons, List.prod_nil] at this ⊢
  simp at this ⊢
  rw [this]; rfl

theorem ensure2D_row {n : Nat} (h : Dims [n]) (f : List Nat → T) :
    FC.ensure2D (ofFn [n] f) = .ok (ofFn [1, n] (fun idx => f [idx.getD 1 0])) := by
  unfold FC.ensure2D
  rw [if_pos (by simp), show (ofFn [n] f).shape.get 0 = .ok (n : Int) from rfl]
  simp only [Except.bind_ok']
  rw [show [(1 : Int), (n : Int)] = ints [1, n] from rfl, reshaped_ofFn (dims_cons_one h) (by simp), ofFn_row]

theorem ensure2D_mat (a b : Nat) (f : List Nat → T) : FC.ensure2D (ofFn [a, b] f) = .ok (ofFn [a, b] f) := by
  unfold FC.ensure2D
  rw [if_neg (by simp)]

theorem add_row [Zero T] [Add T] {b m : Nat} (h : Dims [b, m]) (f g : List Nat → T) :
    (ofFn [b, m] f).add (ofFn [1, m] g) = .ok (ofFn [b, m] (fun idx => f idx + g [0, idx.getD 1 0])) := by
  have hm : Dims [1, m] := dims_cons_one (dims_tail h)
  have hb : 0 < b := h.pos b (by simp)
  have hm' : 0 < m := h.pos m (by simp)
  unfold Tensor.add
  have hb' : bdims [b, m] [1, m] = [b, m] := by
    simp [bdims, dimR, List.range_succ]; omega
  rw [binop_ofFn _ h hm ?_, hb']
  · congr 1
    refine ofFn_congr fun idx hv => ?_
    obtain ⟨i, j, rfl, hi, hj⟩ := valid2_iff.1 hv
    congr 2
    · simp [proj]; omega
    · simp [proj]; omega
  · intro i
    rcases i with _ | _ | i
    · left; rfl
    · right; right; rfl
    · left; simp [dimR]

variable [Zero T] [Add T] [Mul T]

/-- Row `i` of the product plus the bias, as the code accumulates it. -/
def denseRow (n : Nat) (w b x : List Nat → T) : List Nat → T :=
  fun idx => dot n (fun k => x [idx.getD 0 0, k]) (fun k => w [k, idx.getD 1 0]) + b [0, idx.getD 1 0]

theorem fc_affine_batch {b n m : Nat} (h : Dims [b, m]) (w bias x : List Nat → T) :
    FC.affine (ofFn [n, m] w) (ofFn [1, m] bias) (ofFn [b, n] x) = .ok (ofFn [b, m] (denseRow n w bias x)) := by
  unfold FC.affine
  rw [ensure2D_mat]
  simp only [Except.bind_ok']
  rw [C15_product b n m h]
  simp only [Except.bind_ok']
  rw [add_row h]
  simp only [Except.bind_ok']
  rw [if_neg (by simp)]
  rfl

theorem fc_affine_sample {n m : Nat} (hn : Dims [n]) (h : Dims [m]) (w bias x : List Nat → T) :
    FC.affine (ofFn [n, m] w) (ofFn [1, m] bias) (ofFn [n] x) =
      .ok (ofFn [m] (fun idx => dot n (fun k => x [k]) (fun k => w [k, idx.getD 0 0]) + bias [0, idx.getD 0 0])) := by
  have h1 := dims_cons_one h
  unfold FC.affine
  rw [ensure2D_row hn]
  simp only [Except.bind_ok']
  rw [C15_product 1 n m h1]
  simp only [Except.bind_ok']
  rw [add_row h1]
  simp only [Except.bind_ok']
  rw [if_pos (by simp), show ∀ f : List Nat → T, (ofFn [1, m] f).shape.get 1 = .ok (m : Int) from fun _ => rfl]
  simp only [Except.bind_ok']
  rw [show [(m : Int)] = ints [m] from rfl, reshaped_ofFn h (by simp), ofFn_unrow]
  rfl


theorem transpose_mat {a b : Nat} (h : Dims [a, b]) (f : List Nat → T) :
    (ofFn [a, b] f).transpose 0 1 = .ok (ofFn [b, a] (fun idx => f [idx.getD 1 0, idx.getD 0 0])) := by
  rw [transpose_ofFn h (by simp) (by simp)]
  have : swapped 0 1 [a, b] = [b, a] := rfl
  rw [this]
  congr 1
  refine ofFn_congr fun idx hv => ?_
  obtain ⟨i, j, rfl, hi, hj⟩ := valid2_iff.1 hv
  rfl

theorem fc_weightGrad {b n m : Nat} (hx : Dims [b, n]) (hw : Dims [n, m]) (x g : List Nat → T) :
    FC.weightGrad (ofFn [b, n] x) (ofFn [b, m] g) = .ok (ofFn [n, m] (fun idx =>
      dot b (fun i => x [i, idx.getD 0 0]) (fun i => g [i, idx.getD 1 0]))) := by
  unfold FC.weightGrad
  rw [transpose_mat hx]
  simp only [Except.bind_ok']
  rw [C15_product n b m hw]
  rfl

theorem fc_inputGrad {b n m : Nat} (hx : Dims [b, n]) (hw : Dims [n, m]) (w g : List Nat → T) :
    FC.inputGrad (ofFn [n, m] w) (ofFn [b, m] g) = .ok (ofFn [b, n] (fun idx =>
      dot m (fun j => g [idx.getD 0 0, j]) (fun j => w [idx.getD 1 0, j]))) := by
  unfold FC.inputGrad
  rw [transpose_mat hw]
  simp only [Except.bind_ok']
  rw [C15_product b m n hx]
  rfl

theorem fc_biasGrad {b m : Nat} (hg : Dims [b, m]) (bias g : List Nat → T) :
    FC.biasGrad (ofFn [1, m] bias) (ofFn [b, m] g) = .ok (ofFn [1, m] (fun idx =>
      lsum ((List.range b).map (fun i => g [i, idx.getD 1 0])))) := by
  unfold FC.biasGrad
  rw [sumAxis_ofFn hg (by simp) (by simp)]
  simp only [Except.bind_ok']
  rw [show ∀ f : List Nat → T, (ofFn [1, m] f).shape.get 1 = .ok (m : Int) from fun _ => rfl]
  simp only [Except.bind_ok']
  have hm := dims_tail hg
  rw [show [(1 : Int), (m : Int)] = ints [1, m] from rfl]
  have : [b, m].eraseIdx 0 = [m] := rfl
  rw [this, reshaped_ofFn (dims_cons_one hm) (by simp), ofFn_row]
  rfl

theorem fc_backward {l : FC T} {b n m : Nat} (hx : Dims [b, n]) (hw : Dims [n, m]) (hg : Dims [b, m])
    {w bias x g : List Nat → T} {xin gin : Tensor T} (hlw : l.weights = ofFn [n, m] w) (hlb : l.biases = ofFn [1, m] bias)
    (hli : l.input = some xin) (h1 : FC.ensure2D xin = .ok (ofFn [b, n] x)) (h2 : FC.ensure2D gin = .ok (ofFn [b, m] g)) :
    FC.backward gin l =
      (.ok (ofFn [b, n] (fun idx => dot m (fun j => g [idx.getD 0 0, j]) (fun j => w [idx.getD 1 0, j]))),
       { l with
         weightGradients := some (ofFn [n, m] (fun idx =>
           dot b (fun i => x [i, idx.getD 0 0]) (fun i => g [i, idx.getD 1 0])))
         biasGradients := some (ofFn [1, m] (fun idx => lsum ((List.range b).map (fun i => g [i, idx.getD 1 0])))) }) := by
  unfold FC.backward
  rw [Mut.get_bind, hli]
  simp only [h1, h2, Mut.lift_ok_bind, fc_weightGrad hx hw, Mut.modify_bind, hlb, fc_biasGrad hg, hlw,
    fc_inputGrad hx hw, Mut.lift_apply, hli]

end
end SmartDNN
