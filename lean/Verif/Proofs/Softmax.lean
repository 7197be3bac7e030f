import Verif.Model.Activations
import Verif.Proofs.Matmul
import Verif.Proofs.Elementwise
import Verif.Proofs.Mean

/-! The loops of Softmax. -/

namespace SmartDNN
open Spec

section
variable {T : Type}

/-- A loop over the leading coordinate whose body fills one row. -/
theorem forN_rows {d : Nat} {ds : List Nat} (h0 w : List Nat → T) (body : Nat → Tensor T → Res (Tensor T))
    (hb : ∀ b < d, ∀ h, ∃ h', body b (ofFn (d :: ds) h) = .ok (ofFn (d :: ds) h') ∧
      (∀ y, ValidIdx ds y → h' (b :: y) = w (b :: y)) ∧
      (∀ b', b' ≠ b → ∀ y, h' (b' :: y) = h (b' :: y))) :
    forN d (ofFn (d :: ds) h0) body = .ok (ofFn (d :: ds) w) := by
  obtain ⟨s, hs, h, rfl, hw⟩ := forN_inv (n := d) (s := ofFn (d :: ds) h0) (f := body)
    (fun k s => ∃ h, s = ofFn (d :: ds) h ∧ ∀ b < k, ∀ y, ValidIdx ds y → h (b :: y) = w (b :: y))
    ⟨h0, rfl, by omega⟩
    (by
      rintro k s hk ⟨h, rfl, hw⟩
      obtain ⟨h', h1, h2, h3⟩ := hb k hk h
      refine ⟨_, h1, h', rfl, ?_⟩
      intro b hbk y hy
      by_cases hbk' : b = k
      · subst hbk'; exact h2 y hy
      · rw [h3 b hbk']; exact hw b (by omega) y hy)
  rw [hs]
  congr 1
  apply ofFn_congr
  intro idx hv
  obtain ⟨i, is, rfl, hi, his⟩ := validIdx_cons_iff.1 hv
  exact hw i hi is his

theorem foldl_pair {α σ τ : Type _} (L : List α) (g : σ → α → σ) (h : τ → α → τ) (a : σ) (b : τ) :
    L.foldl (fun (p : σ × τ) x => (g p.1 x, h p.2 x)) (a, b) = (L.foldl g a, L.foldl h b) := by
  induction L generalizing a b with
  | nil => rfl
  | cons x L ih => simp [ih]

theorem ravel_row (d : Nat) (ds : List Nat) (b : Nat) (x : List Nat) :
    ((b : Int) * (ds.prod : Int) + (ravel ds x : Nat)) = ((ravel (d :: ds) (b :: x) : Nat) : Int) := by
  simp [ravel]

/-- `std::max_element` over a range holding the values `r 0, …, r n`. -/
def foldMax [LT T] [DecidableLT T] (n : Nat) (r : Nat → T) : T :=
  (List.range n).foldl (fun m i => if m < r (i + 1) then r (i + 1) else m) (r 0)

theorem maxElement_eq [LT T] [DecidableLT T] {D : List T} {o n : Nat} (r : Nat → T)
    (h : ∀ j ≤ n, D[o + j]? = some (r j)) :
    maxElement D (o : Int) ((n + 1 : Nat) : Int) = .ok (foldMax n r) := by
  unfold maxElement
  have h0 := rd_some (h 0 (by omega))
  rw [Nat.add_zero] at h0
  rw [h0]
  simp only [Except.bind_ok']
  have : (((n + 1 : Nat) : Int) - 1) = (n : Int) := by omega
  rw [this, forI_nat]
  rw [forN_ok (fun i m => if m < r (i + 1) then r (i + 1) else m)]
  · rfl
  · intro i hi m
    have h1 : ((o : Int) + ((i : Int) + 1)) = ((o + (i + 1) : Nat) : Int) := by omega
    rw [h1, rd_some (h (i + 1) (by omega))]
    rfl

variable [Zero T] [One T] [Add T] [Sub T] [Mul T] [Div T] [Neg T] [NatCast T]
  [LT T] [DecidableLT T] [LE T] [DecidableLE T] [MathFn T]

theorem featuresSize_ofFn {d : Nat} {ds : List Nat} (hd : Dims (d :: ds)) :
    Act.featuresSize (shapeOf (d :: ds)) (d : Int) = .ok (ds.prod : Int) := by
  have hp := hd.pos d (by simp)
  have hl := hd.lt
  have hpp : 0 < ds.prod := prod_pos_of (fun x hx => hd.pos x (by simp [hx]))
  simp only [List.prod_cons] at hl
  have hd' : d < 2 ^ 31 := by nlinarith
  have hp' : ds.prod < 2 ^ 31 := by nlinarith
  unfold Act.featuresSize
  rw [toSizeT_nat (by omega), if_neg (by omega), shapeOf_size, List.prod_cons,
    Nat.mul_div_cancel_left _ hp, toInt32_small hp']

/-- Maximum found in row `b`. -/
def rowMax (ds : List Nat) (f : List Nat → T) (b : Nat) : T :=
  foldMax (ds.prod - 1) (fun j => f (b :: (indices ds).getD j []))

/-- Divisor of row `b`. -/
def rowSum (ds : List Nat) (f : List Nat → T) (b : Nat) : T :=
  lsum ((indices ds).map (fun y => MathFn.exp (f (b :: y) - rowMax ds f b)))

theorem row_max_ok {d : Nat} {ds : List Nat} (hd : Dims (d :: ds)) (f : List Nat → T) {b : Nat} (hb : b < d) :
    maxElement (ofFn (d :: ds) f).data ((b : Int) * (ds.prod : Int)) (ds.prod : Int) = .ok (rowMax ds f b) := by
  have hpp : 0 < ds.prod := prod_pos_of (fun x hx => hd.pos x (by simp [hx]))
  obtain ⟨n, hn⟩ : ∃ n, ds.prod = n + 1 := ⟨ds.prod - 1, by omega⟩
  unfold rowMax
  have : ((b : Int) * (ds.prod : Int)) = ((b * ds.prod : Nat) : Int) := by push_cast; rfl
  rw [this]
  have h2 : maxElement (ofFn (d :: ds) f).data ((b * ds.prod : Nat) : Int) ((n + 1 : Nat) : Int) = _ :=
    maxElement_eq (fun j => f (b :: (indices ds).getD j [])) (by
      intro j hj
      obtain ⟨x, hx, hr, hi⟩ := exists_idx_of_lt (ds := ds) (k := j) (by omega)
      have hv : ValidIdx (d :: ds) (b :: x) := ValidIdx.cons.2 ⟨hb, hx⟩
      have := ofFn_getElem? (d :: ds) f hv
      simp only [ravel, hr] at this
      rw [this]
      simp [List.getD_eq_getElem?_getD, hi])
  rw [hn] at h2 ⊢
  rw [h2]
  simp

theorem softmaxForward_ofFn {d : Nat} {ds : List Nat} (hd : Dims (d :: ds)) (hne : ds ≠ []) (f : List Nat → T) :
    Act.softmaxForward (ofFn (d :: ds) f) = .ok (ofFn (d :: ds) (fun idx =>
      MathFn.exp (f idx - rowMax ds f (idx.headD 0)) / rowSum ds f (idx.headD 0))) := by
  unfold Act.softmaxForward
  have hr : ¬ (shapeOf (d :: ds)).rank < 2 := by
    rw [shapeOf_rank, List.length_cons]
    have := List.length_pos_iff.2 hne
    omega
  rw [ofFn_shape, if_neg hr, get0, zeros_shapeOf]
  simp only [Except.bind_ok', Except.pure_eq', featuresSize_ofFn hd, forI_nat]
  apply forN_rows
  intro b hb h
  rw [row_max_ok hd f hb]
  simp only [Except.bind_ok']
  set M := rowMax ds f b with hM
  have hinj : ∀ x y : List Nat, b :: x = b :: y ↔ x = y := by simp
  have L1 : forN ds.prod (ofFn (d :: ds) h, (0 : T)) (fun i st => do
      let x ← rd (ofFn (d :: ds) f).data ((b : Int) * (ds.prod : Int) + (i : Int))
      let o ← st.1.set ((b : Int) * (ds.prod : Int) + (i : Int)) (MathFn.exp (x - M))
      Except.ok (o, st.2 + MathFn.exp (x - M))) =
      .ok (ofFn (d :: ds) (fun j => if j ∈ (indices ds).map (fun x => b :: x) then MathFn.exp (f j - M) else h j),
        rowSum ds f b) := by
    rw [forN_prod]
    have := foldlM_inv (l := indices ds) (f := fun (st : Tensor T × T) idx => do
      let x ← rd (ofFn (d :: ds) f).data ((b : Int) * (ds.prod : Int) + ((ravel ds idx : Nat) : Int))
      let o ← st.1.set ((b : Int) * (ds.prod : Int) + ((ravel ds idx : Nat) : Int)) (MathFn.exp (x - M))
      Except.ok (o, st.2 + MathFn.exp (x - M)))
      (fun (p : (List Nat → T) × T) => (ofFn (d :: ds) p.1, p.2))
      (fun p x => (upd p.1 (b :: x) (MathFn.exp (f (b :: x) - M)), p.2 + MathFn.exp (f (b :: x) - M)))
      (h, 0) (by
        intro x hx p
        have hv : ValidIdx (d :: ds) (b :: x) := ValidIdx.cons.2 ⟨hb, mem_indices.1 hx⟩
        have e1 := ravel_row d ds b x
        simp only [e1]
        have e2 := rd_some (ofFn_getElem? (d :: ds) f hv)
        rw [e2]
        simp only [Except.bind_ok', setFlat_ofFn _ hv])
    refine this.trans ?_
    rw [foldl_pair (indices ds) (fun h x => upd h (b :: x) (MathFn.exp (f (b :: x) - M)))
      (fun s x => s + MathFn.exp (f (b :: x) - M))]
    have e3 := foldl_upd_eq (indices ds) (fun x => b :: x) (fun j => MathFn.exp (f j - M)) h
    simp only [Except.ok.injEq, Prod.mk.injEq]
    refine ⟨congrArg _ (funext e3), ?_⟩
    unfold rowSum lsum
    rw [List.foldl_map]
  rw [L1]
  simp only [Except.bind_ok']
  have L2 : ∀ h1 : List Nat → T, forN ds.prod (ofFn (d :: ds) h1) (fun i output => do
      let e ← output.get ((b : Int) * (ds.prod : Int) + (i : Int))
      output.set ((b : Int) * (ds.prod : Int) + (i : Int)) (e / rowSum ds f b)) =
      .ok (ofFn (d :: ds) (fun j => ((indices ds).filter (fun x => decide (b :: x = j))).foldl
        (fun v _ => v / rowSum ds f b) (h1 j))) := by
    intro h1
    rw [forN_prod]
    have := foldlM_inv (l := indices ds) (f := fun (output : Tensor T) idx => do
      let e ← output.get ((b : Int) * (ds.prod : Int) + ((ravel ds idx : Nat) : Int))
      output.set ((b : Int) * (ds.prod : Int) + ((ravel ds idx : Nat) : Int)) (e / rowSum ds f b))
      (fun p => ofFn (d :: ds) p)
      (fun p x => upd p (b :: x) (p (b :: x) / rowSum ds f b)) h1 (by
        intro x hx p
        have hv : ValidIdx (d :: ds) (b :: x) := ValidIdx.cons.2 ⟨hb, mem_indices.1 hx⟩
        have e1 := ravel_row d ds b x
        simp only [e1]
        rw [get_ofFn p hv]
        simp only [Except.bind_ok', setFlat_ofFn _ hv])
    refine this.trans ?_
    congr 2
    funext j
    exact foldl_upd_acc (indices ds) (fun x => b :: x) (fun v _ => v / rowSum ds f b) h1 j
  rw [L2]
  refine ⟨_, rfl, ?_, ?_⟩
  · intro y hy
    have hm : y ∈ indices ds := mem_indices.2 hy
    have e : (indices ds).filter (fun x => decide (b :: x = b :: y)) = [y] := by
      simp only [hinj]
      exact filter_eq_of_nodup (nodup_indices ds) hm
    rw [e]
    simp only [List.foldl_cons, List.foldl_nil, List.headD_cons]
    rw [if_pos (List.mem_map.2 ⟨y, hm, rfl⟩)]
  · intro b' hb' y
    have e : (indices ds).filter (fun x => decide (b :: x = b' :: y)) = [] := by
      apply List.filter_eq_nil_iff.2
      intro x _
      simp only [decide_eq_true_eq, List.cons.injEq, not_and]
      intro h; exact absurd h.symm hb'
    rw [e]
    simp only [List.foldl_nil]
    rw [if_neg]
    intro hm
    obtain ⟨x, _, hx⟩ := List.mem_map.1 hm
    exact hb' (List.cons.inj hx).1.symm

theorem softmaxForward_rank1 {ds : List Nat} (h : ds.length < 2) (f : List Nat → T) :
    Act.softmaxForward (ofFn ds f) = .error .invalidArgument := by
  unfold Act.softmaxForward
  rw [ofFn_shape, if_pos (by rw [shapeOf_rank]; exact h)]
  rfl

/-- The accumulation for one input coordinate. -/
def rowGrad (ds : List Nat) (S g : List Nat → T) (b : Nat) (x : List Nat) : T :=
  (indices ds).foldl (fun a y => if x = y then a + S (b :: x) * (1 - S (b :: y)) * g (b :: y)
    else a - S (b :: x) * S (b :: y) * g (b :: y)) 0

theorem softmaxBackward_ofFn {d : Nat} {ds : List Nat} (hd : Dims (d :: ds)) (hne : ds ≠ []) (f g : List Nat → T) :
    Act.softmaxBackward (ofFn (d :: ds) f) (ofFn (d :: ds) g) = .ok (ofFn (d :: ds) (fun idx =>
      rowGrad ds (fun idx => MathFn.exp (f idx - rowMax ds f (idx.headD 0)) / rowSum ds f (idx.headD 0)) g
        (idx.headD 0) idx.tail)) := by
  unfold Act.softmaxBackward
  have hr : ¬ ((shapeOf (d :: ds)).rank < 2 ∨ (shapeOf (d :: ds)).rank < 2) := by
    rw [shapeOf_rank, List.length_cons]
    have := List.length_pos_iff.2 hne
    omega
  rw [ofFn_shape, ofFn_shape, if_neg hr, softmaxForward_ofFn hd hne]
  simp only [Except.bind_ok', Except.pure_eq', get0, featuresSize_ofFn hd, forI_nat, zeros_shapeOf]
  set S : List Nat → T := fun idx => MathFn.exp (f idx - rowMax ds f (idx.headD 0)) / rowSum ds f (idx.headD 0)
    with hS
  apply forN_rows
  intro b hb h
  rw [forN_prod]
  have := foldlM_inv (l := indices ds) (f := fun (gi : Tensor T) x => do
      let gradient ← forN ds.prod (0 : T) (fun j gradient => do
        let oi ← rd (ofFn (d :: ds) S).data ((b : Int) * (ds.prod : Int) + ((ravel ds x : Nat) : Int))
        let oj ← rd (ofFn (d :: ds) S).data ((b : Int) * (ds.prod : Int) + (j : Int))
        let g ← rd (ofFn (d :: ds) g).data ((b : Int) * (ds.prod : Int) + (j : Int))
        if ((ravel ds x : Nat) : Int) = (j : Int) then Except.ok (gradient + oi * (1 - oj) * g)
        else Except.ok (gradient - oi * oj * g))
      gi.set ((b : Int) * (ds.prod : Int) + ((ravel ds x : Nat) : Int)) gradient)
    (fun p => ofFn (d :: ds) p)
    (fun p x => upd p (b :: x) (rowGrad ds S g b x)) h (by
      intro x hx p
      have hvx := mem_indices.1 hx
      have hv : ValidIdx (d :: ds) (b :: x) := ValidIdx.cons.2 ⟨hb, hvx⟩
      have : forN ds.prod (0 : T) (fun j gradient => do
        let oi ← rd (ofFn (d :: ds) S).data ((b : Int) * (ds.prod : Int) + ((ravel ds x : Nat) : Int))
        let oj ← rd (ofFn (d :: ds) S).data ((b : Int) * (ds.prod : Int) + (j : Int))
        let g ← rd (ofFn (d :: ds) g).data ((b : Int) * (ds.prod : Int) + (j : Int))
        if ((ravel ds x : Nat) : Int) = (j : Int) then Except.ok (gradient + oi * (1 - oj) * g)
        else Except.ok (gradient - oi * oj * g)) = .ok (rowGrad ds S g b x) := by
        rw [forN_prod]
        refine foldlM_inv (fun (t : T) => t) _ _ ?_
        intro y hy a
        have hvy := mem_indices.1 hy
        have hv' : ValidIdx (d :: ds) (b :: y) := ValidIdx.cons.2 ⟨hb, hvy⟩
        simp only [ravel_row d ds]
        rw [rd_some (ofFn_getElem? (d :: ds) S hv), rd_some (ofFn_getElem? (d :: ds) S hv'),
          rd_some (ofFn_getElem? (d :: ds) g hv')]
        simp only [Except.bind_ok', Nat.cast_inj]
        by_cases hxy : x = y
        · subst hxy; simp
        · have : ravel ds x ≠ ravel ds y := fun h => hxy (ravel_inj hvx hvy h)
          rw [if_neg this, if_neg hxy]
      beta_reduce
      rw [this]
      simp only [Except.bind_ok', ravel_row d ds]
      rw [setFlat_ofFn _ hv])
  refine ⟨_, this, ?_, ?_⟩
  · intro y hy
    have := foldl_upd_eq (indices ds) (fun x => b :: x) (fun j => rowGrad ds S g (j.headD 0) j.tail) h (b :: y)
    simp only [List.headD_cons, List.tail_cons] at this
    rw [this, if_pos (List.mem_map.2 ⟨y, mem_indices.2 hy, rfl⟩)]
    rfl
  · intro b' hb' y
    have := foldl_upd_eq (indices ds) (fun x => b :: x) (fun j => rowGrad ds S g (j.headD 0) j.tail) h (b' :: y)
    simp only [List.headD_cons, List.tail_cons] at this
    rw [this, if_neg]
    intro hm
    obtain ⟨x, _, hx⟩ := List.mem_map.1 hm
    exact hb' (List.cons.inj hx).1.symm

end
end SmartDNN
