import Verif.Proofs.TensorOps
import Mathlib.Algebra.BigOperators.Group.List.Lemmas

/-! Loops over index tuples: nested counted loops, odometer loops, gather and scatter. -/

namespace SmartDNN
open Spec

/-! ### Loops as folds over `indices` -/

theorem foldlM_indices_cons {σ : Type _} (d : Nat) (ds : List Nat) (body : σ → List Nat → Res σ) (s : σ) :
    (indices (d :: ds)).foldlM body s =
      forN d s (fun i s => (indices ds).foldlM (fun s is => body s (i :: is)) s) := by
  unfold forN
  simp only [indices]
  generalize List.range d = l
  induction l generalizing s with
  | nil => rfl
  | cons i l ih =>
    rw [List.flatMap_cons, List.foldlM_append, List.foldlM_cons, List.foldlM_map]
    congr 1
    funext s'
    exact ih s'

theorem foldlM_indices_nil {σ : Type _} (body : σ → List Nat → Res σ) (s : σ) :
    (indices []).foldlM body s = body s [] := by
  simp [indices]

/-- One counted loop. -/
theorem forN_indices1 {σ : Type _} (a : Nat) (body : Nat → σ → Res σ) (s : σ) :
    forN a s body = (indices [a]).foldlM (fun s idx => body (idx.getD 0 0) s) s := by
  rw [foldlM_indices_cons]
  simp only [foldlM_indices_nil, List.getD_cons_zero]

/-- Two nested counted loops. -/
theorem forN_indices2 {σ : Type _} (a b : Nat) (body : Nat → Nat → σ → Res σ) (s : σ) :
    forN a s (fun i s => forN b s (fun j s => body i j s)) =
      (indices [a, b]).foldlM (fun s idx => body (idx.getD 0 0) (idx.getD 1 0) s) s := by
  simp only [foldlM_indices_cons, foldlM_indices_nil, List.getD_cons_zero, List.getD_cons_succ]

theorem forN_indices3 {σ : Type _} (a b c : Nat) (body : Nat → Nat → Nat → σ → Res σ) (s : σ) :
    forN a s (fun i s => forN b s (fun j s => forN c s (fun k s => body i j k s))) =
      (indices [a, b, c]).foldlM
        (fun s idx => body (idx.getD 0 0) (idx.getD 1 0) (idx.getD 2 0) s) s := by
  simp only [foldlM_indices_cons, foldlM_indices_nil, List.getD_cons_zero, List.getD_cons_succ]

theorem forN_indices4 {σ : Type _} (a b c d : Nat) (body : Nat → Nat → Nat → Nat → σ → Res σ) (s : σ) :
    forN a s (fun i s => forN b s (fun j s => forN c s (fun k s => forN d s (fun l s => body i j k l s)))) =
      (indices [a, b, c, d]).foldlM
        (fun s idx => body (idx.getD 0 0) (idx.getD 1 0) (idx.getD 2 0) (idx.getD 3 0) s) s := by
  simp only [foldlM_indices_cons, foldlM_indices_nil, List.getD_cons_zero, List.getD_cons_succ]

/-- A loop over flat positions is a loop over index tuples. -/
theorem forN_prod {σ : Type _} (ds : List Nat) (body : Nat → σ → Res σ) (s : σ) :
    forN ds.prod s body = (indices ds).foldlM (fun s idx => body (ravel ds idx) s) s := by
  unfold forN
  have : List.range ds.prod = (indices ds).map (ravel ds) := by
    apply List.ext_getElem (by simp)
    intro k h1 h2
    simp only [List.length_range] at h1
    obtain ⟨idx, hv, hr, hi⟩ := exists_idx_of_lt h1
    simp only [List.getElem_range, List.getElem_map]
    rw [List.getElem?_eq_getElem (by simpa using h1)] at hi
    rw [Option.some.inj hi, hr]
  rw [this, List.foldlM_map]

theorem foldlM_congr {σ α : Type _} {l : List α} {f g : σ → α → Res σ} {s : σ}
    (h : ∀ a ∈ l, ∀ s, f s a = g s a) : l.foldlM f s = l.foldlM g s := by
  induction l generalizing s with
  | nil => rfl
  | cons a l ih =>
    simp only [List.foldlM_cons]
    rw [h a (by simp)]
    congr 1; funext s'
    exact ih (fun b hb => h b (by simp [hb]))

/-- A monadic fold whose body succeeds and keeps an invariant. -/
theorem foldlM_inv {σ τ α : Type _} {l : List α} {f : σ → α → Res σ} (mk : τ → σ) (step : τ → α → τ) (t : τ)
    (h : ∀ a ∈ l, ∀ t, f (mk t) a = .ok (mk (step t a))) :
    l.foldlM f (mk t) = .ok (mk (l.foldl step t)) := by
  induction l generalizing t with
  | nil => rfl
  | cons a l ih =>
    simp only [List.foldlM_cons, List.foldl_cons]
    rw [h a (by simp)]
    exact ih _ (fun b hb => h b (by simp [hb]))

/-- An odometer-driven `do … while` loop is a fold over the index tuples. -/
theorem doWhile_indices {S σ : Type} {ds : List Nat} (hp : ∀ d ∈ ds, 0 < d)
    (bodyS : S → Res (Bool × S)) (mk : σ → List Nat → S) (body : List Nat → σ → Res σ)
    (h : ∀ s idx, ValidIdx ds idx → ∀ b r, odoStep (ints ds) (ints idx) = (b, ints r) →
      bodyS (mk s idx) = (do let s' ← body idx s; return (b, mk s' r)))
    (s : σ) (fuel : Nat) (hfuel : ds.prod ≤ fuel) :
    doWhileFuel bodyS fuel (mk s (List.replicate ds.length 0)) =
      (do
        let s' ← (indices ds).foldlM (fun s idx => body idx s) s
        return mk s' (List.replicate ds.length 0)) := by
  have key : ∀ n idx s fuel, ValidIdx ds idx → ravel ds idx + (n + 1) = ds.prod → n + 1 ≤ fuel →
      doWhileFuel bodyS fuel (mk s idx) =
      (do
        let s' ← ((indices ds).drop (ravel ds idx)).foldlM (fun s idx => body idx s) s
        return mk s' (List.replicate ds.length 0)) := by
    intro n
    induction n with
    | zero =>
      intro idx s fuel hv hn hf
      obtain ⟨fuel, rfl⟩ : ∃ k, fuel = k + 1 := ⟨fuel - 1, by omega⟩
      unfold doWhileFuel
      rw [h s idx hv _ _ ((odoStep_spec hp hv).2 (by omega))]
      have h2 : ravel ds idx < (indices ds).length := by simp; omega
      rw [List.drop_eq_getElem_cons h2, List.drop_of_length_le (by simp; omega)]
      have h3 := indices_ravel hv
      rw [List.getElem?_eq_getElem h2] at h3
      rw [Option.some.inj h3]
      simp only [List.foldlM_cons, List.foldlM_nil, Except.bind_ok_eta, Except.pure_eq', bind_assoc,
        Except.bind_ok', Bool.false_eq_true, if_false]
    | succ n ih =>
      intro idx s fuel hv hn hf
      obtain ⟨fuel, rfl⟩ : ∃ k, fuel = k + 1 := ⟨fuel - 1, by omega⟩
      unfold doWhileFuel
      obtain ⟨idx', he, hv', hr'⟩ := (odoStep_spec hp hv).1 (by omega)
      rw [h s idx hv _ _ he]
      have h2 : ravel ds idx < (indices ds).length := by simp; omega
      rw [List.drop_eq_getElem_cons h2, ← hr']
      have h3 := indices_ravel hv
      rw [List.getElem?_eq_getElem h2] at h3
      rw [Option.some.inj h3]
      simp only [List.foldlM_cons, Except.pure_eq', bind_assoc, Except.bind_ok', if_true]
      congr 1
      funext s'
      have := ih idx' s' fuel hv' (by omega) (by omega)
      rw [this]
      rfl
  have hpp := prod_pos_of hp
  have := key (ds.prod - 1) _ s fuel (validIdx_zeros hp) (by rw [ravel_zeros]; omega) (by omega)
  rw [this, ravel_zeros]
  rfl

/-! ### Sequences of writes -/

section
variable {T : Type} {α : Type _}

/-- Writes `w j` at every written position `j`. -/
theorem foldl_upd_eq (L : List α) (p : α → List Nat) (w f0 : List Nat → T) (j : List Nat) :
    L.foldl (fun f x => upd f (p x) (w (p x))) f0 j = if j ∈ L.map p then w j else f0 j := by
  induction L using List.reverseRecOn with
  | nil => simp
  | append_singleton L x ih =>
    rw [List.foldl_append]
    simp only [List.foldl_cons, List.foldl_nil, List.map_append, List.map_cons, List.map_nil,
      List.mem_append, List.mem_singleton]
    unfold upd at *
    by_cases hj : j = p x
    · subst hj; simp
    · rw [if_neg hj, ih]
      simp [hj]

/-- Accumulating writes: position `j` receives, in order, the contributions of the items mapped to
it. -/
theorem foldl_upd_acc (L : List α) (p : α → List Nat) (v : T → α → T) (f0 : List Nat → T) (j : List Nat) :
    L.foldl (fun f x => upd f (p x) (v (f (p x)) x)) f0 j =
      (L.filter (fun x => decide (p x = j))).foldl v (f0 j) := by
  induction L using List.reverseRecOn with
  | nil => simp
  | append_singleton L x ih =>
    rw [List.foldl_append, List.filter_append, List.foldl_append]
    simp only [List.foldl_cons, List.foldl_nil]
    unfold upd at *
    by_cases hj : j = p x
    · subst hj
      simp [ih]
    · have : ¬ p x = j := fun h => hj h.symm
      simp [ih, hj, this]

/-- A loop that writes one value at every index tuple. -/
theorem foldlM_fill {ds : List Nat} (f0 v : List Nat → T) (body : Tensor T → List Nat → Res (Tensor T))
    (h : ∀ idx, ValidIdx ds idx → ∀ f, body (ofFn ds f) idx = .ok (ofFn ds (upd f idx (v idx)))) :
    (indices ds).foldlM body (ofFn ds f0) = .ok (ofFn ds v) := by
  have := foldlM_inv (l := indices ds) (f := body) (fun f => ofFn ds f)
    (fun f idx => upd f idx (v idx)) f0 (fun idx hi f => h idx (mem_indices.1 hi) f)
  rw [this]
  congr 1
  apply ofFn_congr
  intro idx hv
  have := foldl_upd_eq (indices ds) id v f0 idx
  simp only [id] at this
  rw [this, if_pos (by simpa [mem_indices] using hv)]

end

/-! ### `applyPair` and flat fills -/

section
variable {T : Type}

theorem forN_fill {ds : List Nat} (f0 v : List Nat → T) (val : Nat → Res T)
    (h : ∀ idx, ValidIdx ds idx → val (ravel ds idx) = .ok (v idx)) :
    forN ds.prod (ofFn ds f0) (fun i t => do
      let x ← val i
      t.set i x) = .ok (ofFn ds v) := by
  rw [forN_prod]
  apply foldlM_fill
  intro idx hv f
  rw [h idx hv]
  exact setFlat_ofFn f hv _

theorem foldl_add_sum [AddCommMonoid T] {α : Type _} (L : List α) (f : α → T) (z : T) :
    L.foldl (fun acc x => acc + f x) z = z + (L.map f).sum := by
  induction L generalizing z with
  | nil => simp
  | cons a L ih => simp [ih, add_assoc]

end
end SmartDNN
