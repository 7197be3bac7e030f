import Verif.Proofs.Dense
import Verif.Proofs.LinearCalculus
import Verif.Proofs.Random

/-!
# Lemmas about the flatten and dropout layers
-/

namespace SmartDNN
open Spec

section
variable {T : Type}

theorem dims_flat {d : Nat} {ds : List Nat} (h : Dims (d :: ds)) : Dims [d, ds.prod] := by
  refine ⟨by simp, ?_, by simpa using h.lt⟩
  intro x hx
  simp only [List.mem_cons, List.not_mem_nil, or_false] at hx
  rcases hx with rfl | rfl
  · exact h.pos _ (by simp)
  · exact prod_pos_of fun e he => h.pos e (by simp [he])

theorem flatten_forward {d : Nat} {ds : List Nat} (h : Dims (d :: ds)) (hr : 2 ≤ ds.length) (f : List Nat → T)
    (l : Flatten) :
    Flatten.forward (ofFn (d :: ds) f) l =
      (.ok ⟨shapeOf [d, ds.prod], (indices (d :: ds)).map f⟩, { l with originalShape := some (shapeOf (d :: ds)) }) := by
  unfold Flatten.forward
  rw [if_neg (by rw [ofFn_shape, shapeOf_rank, List.length_cons]; omega), if_neg (by rw [ofFn_shape, shapeOf_rank, List.length_cons]; omega)]
  simp only [Mut.modify_bind]
  rw [show (ofFn (d :: ds) f).shape.get 0 = .ok (d : Int) from rfl]
  simp only [Mut.lift_ok_bind, Mut.lift_apply]
  have hpos : 0 < d := h.pos d (by simp)
  have hl := h.lt
  have hlt : ds.prod < 2 ^ 31 := by
    rw [List.prod_cons] at hl
    exact lt_of_le_of_lt (Nat.le_mul_of_pos_left _ hpos) hl
  have hd : d < 2 ^ 31 := by
    rw [List.prod_cons] at hl
    exact lt_of_le_of_lt (Nat.le_mul_of_pos_right _ (prod_pos_of fun e he => h.pos e (by simp [he]))) hl
  have h1 : toSizeT (d : Int) = d := toSizeT_nat (by omega)
  have h2 : ((ofFn (d :: ds) f).shape.size / toSizeT (d : Int) : Nat) = ds.prod := by
    rw [h1, ofFn_shape, shapeOf_size, List.prod_cons, Nat.mul_div_cancel_left _ hpos]
  rw [h2, toInt32_small hlt, show [(d : Int), ((ds.prod : Nat) : Int)] = ints [d, ds.prod] from rfl,
    reshaped_ofFn (dims_flat h) (by simp)]
  rfl

theorem reshape_back {es ds : List Nat} (hd : Dims ds) (hp : ds.prod = es.prod) (g : List Nat → T) :
    (ofFn es g).reshape (ints ds) = .ok (ofFn ds (fun idx => g (reindex ds es idx))) := by
  rw [reshaped_eq _ (ofFn_shape es g) hd hp, ofFn_data, reinterpret_ofFn hp]

theorem reindex_reindex {es ds idx : List Nat} (h : es.prod = ds.prod) (hv : ValidIdx es idx) :
    reindex ds es (reindex es ds idx) = idx := by
  have h2 := (reindex_valid h hv).2
  unfold reindex at *
  rw [h2, List.getD_eq_getElem?_getD, indices_ravel hv]
  rfl

theorem hasVJP_reindex {ds es : List Nat} (h : es.prod = ds.prod) (f : List Nat → ℝ) :
    HasVJP ds es (fun x j => x (reindex es ds j)) f (fun g i => g (reindex ds es i)) := by
  intro g c v hc
  have h1 := hasVJP_gather (ds := ds) (es := es) [()] (fun _ _ => 1) (fun j _ => reindex es ds j) (fun _ => 0)
    (fun j hj _ _ => Or.inr (reindex_valid h hj).1) f g c v hc
  simp only [List.map_cons, List.map_nil, List.sum_cons, List.sum_nil, one_mul, add_zero, mul_one] at h1
  convert h1 using 1
  refine total_congr fun i hi => ?_
  congr 1
  beta_reduce
  rw [← total_single (reindex_valid h.symm hi).1 g]
  refine total_congr fun j hj => ?_
  by_cases hji : j = reindex ds es i
  · rw [if_pos hji, if_pos]
    rw [hji, reindex_reindex h.symm hi]
  · rw [if_neg hji, if_neg]
    intro h2
    exact hji (by rw [← h2, reindex_reindex h hj])

theorem extensional_reindex {ds es : List Nat} (h : es.prod = ds.prod) :
    Extensional ds es (fun x j => x (reindex es ds j)) :=
  fun _ _ hxy _ hj => hxy _ (reindex_valid h hj).1

end

section
variable {ρ T : Type} [Zero T] [One T] [Sub T] [Mul T] [Div T] [LT T] [DecidableLT T]

theorem dropout_forward_training (E : Engine ρ T) {ds : List Nat} (h : Dims ds) (f : List Nat → T) (l : Dropout T) (r : ρ)
    {u : List Nat → T} {r' : ρ} (hu : Tensor.rand E (shapeOf ds) r = .ok (ofFn ds u, r')) :
    Dropout.forward E true (ofFn ds f) (l, r) =
      (.ok (ofFn ds (fun i => f i * (if l.dropoutRate < u i then 1 else 0) * (1 / (1 - l.dropoutRate)))),
       ({ l with mask := some (ofFn ds (fun i => if l.dropoutRate < u i then 1 else 0)) }, r')) := by
  unfold Dropout.forward
  rw [if_pos rfl, Mut.get_bind, ofFn_shape, hu]
  simp only [Mut.lift_ok_bind, Mut.set_bind, Tensor.apply]
  rw [map_ofFn]
  simp only [Mut.lift_ok_bind, Mut.modify_bind]
  rw [mul_same h]
  simp only [Mut.lift_ok_bind, Mut.lift_apply]
  rw [mulScalar_ofFn]

end
end SmartDNN
