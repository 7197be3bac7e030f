import Verif.Model.Datasets
import Verif.Proofs.Scatter
import Verif.Proofs.Matmul

/-!
# Lemmas about the dataset loaders
-/

namespace SmartDNN
open Spec

section
variable {σ : Type _}

/-- A loop over a list that follows a given sequence of states. -/
theorem foldlM_seq {α : Type _} (L : List α) (body : σ → α → Res σ) (seq : Nat → σ)
    (h : ∀ k (hk : k < L.length), body (seq k) L[k] = .ok (seq (k + 1))) :
    L.foldlM body (seq 0) = .ok (seq L.length) := by
  induction L generalizing seq with
  | nil => rfl
  | cons a L ih =>
    rw [List.foldlM_cons]
    have h0 := h 0 (by simp)
    simp only [List.getElem_cons_zero] at h0
    rw [h0, Except.bind_ok']
    have := ih (fun k => seq (k + 1)) (fun k hk => by
      have := h (k + 1) (by simpa using hk)
      simpa using this)
    simpa using this

theorem forN_seq {n : Nat} (body : Nat → σ → Res σ) (seq : Nat → σ)
    (h : ∀ k < n, body k (seq k) = .ok (seq (k + 1))) : forN n (seq 0) body = .ok (seq n) := by
  induction n with
  | zero => rfl
  | succ n ih => rw [forN_succ, ih (fun k hk => h k (by omega))]; exact h n (by omega)

theorem forN_seq_error {n : Nat} (body : Nat → σ → Res σ) (seq : Nat → σ) {k0 : Nat} (hk0 : k0 < n) {e : Err}
    (h : ∀ k < k0, body k (seq k) = .ok (seq (k + 1))) (he : body k0 (seq k0) = .error e) :
    forN n (seq 0) body = .error e := by
  have : forN (k0 + 1) (seq 0) body = .error e := by
    rw [forN_succ, forN_seq body seq h]; exact he
  obtain ⟨d, rfl⟩ : ∃ d, n = k0 + 1 + d := ⟨n - (k0 + 1), by omega⟩
  clear hk0
  induction d with
  | zero => exact this
  | succ d ih => rw [show k0 + 1 + (d + 1) = (k0 + 1 + d) + 1 from rfl, forN_succ, ih]; rfl

theorem stepLoop_seq {n b N : Nat} (body : Int → σ → Res σ) (seq : Nat → σ)
    (hN : ∀ k < N, k * b < n) (hn : n ≤ N * b) (hb : n + b ≤ 2 ^ 31)
    (h : ∀ k < N, body ((k * b : Nat) : Int) (seq k) = .ok (seq (k + 1))) :
    ∀ m k fuel : Nat, k + m = N → m ≤ fuel →
      stepLoop n b body fuel ((k * b : Nat) : Int) (seq k) = .ok (seq N) := by
  intro m
  induction m with
  | zero =>
    intro k fuel hk _
    have : k = N := by omega
    subst this
    unfold stepLoop
    rw [if_neg (by exact_mod_cast not_lt.2 hn)]
  | succ m ih =>
    intro k fuel hk hf
    obtain ⟨fuel, rfl⟩ : ∃ f, fuel = f + 1 := ⟨fuel - 1, by omega⟩
    have hk' : k < N := by omega
    have h1 := hN k hk'
    unfold stepLoop
    rw [if_pos (by exact_mod_cast h1)]
    simp only [h k hk', Except.bind_ok']
    have e : ((k * b : Nat) : Int) + (b : Int) = (((k + 1) * b : Nat) : Int) := by push_cast; ring
    rw [e, if_pos (by
      have : (k + 1) * b < 2 ^ 31 := by rw [Nat.add_mul]; omega
      exact_mod_cast this)]
    exact ih (k + 1) fuel (by omega) (by omega)

theorem stepLoop_seq_error {n b N : Nat} (body : Int → σ → Res σ) (seq : Nat → σ) {e : Err}
    (hN : ∀ k ≤ N, k * b < n) (hb : n + b ≤ 2 ^ 31)
    (h : ∀ k < N, body ((k * b : Nat) : Int) (seq k) = .ok (seq (k + 1)))
    (he : body ((N * b : Nat) : Int) (seq N) = .error e) :
    ∀ m k fuel : Nat, k + m = N → m < fuel →
      stepLoop n b body fuel ((k * b : Nat) : Int) (seq k) = .error e := by
  intro m
  induction m with
  | zero =>
    intro k fuel hk hf
    have : k = N := by omega
    subst this
    obtain ⟨fuel, rfl⟩ : ∃ f, fuel = f + 1 := ⟨fuel - 1, by omega⟩
    unfold stepLoop
    rw [if_pos (by exact_mod_cast hN k le_rfl)]
    simp only [he, Except.bind_error']
  | succ m ih =>
    intro k fuel hk hf
    obtain ⟨fuel, rfl⟩ : ∃ f, fuel = f + 1 := ⟨fuel - 1, by omega⟩
    have h1 := hN k (by omega)
    unfold stepLoop
    rw [if_pos (by exact_mod_cast h1)]
    simp only [h k (by omega), Except.bind_ok']
    have e : ((k * b : Nat) : Int) + (b : Int) = (((k + 1) * b : Nat) : Int) := by push_cast; ring
    rw [e, if_pos (by
      have : (k + 1) * b < 2 ^ 31 := by rw [Nat.add_mul]; omega
      exact_mod_cast this)]
    exact ih (k + 1) fuel (by omega) (by omega)

end

/-- Number of batches of size `b` needed for `n` items. -/
theorem ceil_spec {n b : Nat} (hb : 0 < b) :
    (∀ k < (n + b - 1) / b, k * b < n) ∧ n ≤ (n + b - 1) / b * b := by
  constructor
  · intro k hk
    have h1 : (k + 1) * b ≤ n + b - 1 := (Nat.le_div_iff_mul_le hb).1 hk
    rw [Nat.add_mul] at h1
    omega
  · have h1 : n + b - 1 < ((n + b - 1) / b + 1) * b := by
      rw [mul_comm]; exact Nat.lt_mul_div_succ _ hb
    rw [Nat.add_mul] at h1
    omega

theorem ceil_le {n b : Nat} (hb : 0 < b) : (n + b - 1) / b ≤ n := by
  by_contra h
  have h1 := (ceil_spec (n := n) hb).1 n (by omega)
  have : n * 1 ≤ n * b := Nat.mul_le_mul_left n hb
  omega

theorem getByte_drop (file : List Byte) (p : Nat) :
    getByte (file.drop p) = (file.getD p 255, file.drop (p + 1)) := by
  by_cases h : p < file.length
  · rw [List.drop_eq_getElem_cons h]
    simp [getByte, h]
  · rw [List.drop_eq_nil_of_le (by omega), List.drop_eq_nil_of_le (by omega)]
    simp [getByte, List.getElem?_eq_none (by omega : file.length ≤ p)]

section
variable {T : Type} [Zero T] [One T] [Div T] [NatCast T] [LT T] [DecidableLT T]

theorem ravel_chan {a r c : Nat} (j k l : Nat) :
    ravel [a, 1, r, c] [j, 0, k, l] = ravel [a, r, c] [j, k, l] := by
  simp only [ravel, List.prod_cons, List.prod_nil]
  ring

theorem loadImageBatch_ok {a r c : Nat} (hd : Dims [a, 1, r, c]) (file : List Byte)
    (hr : ∀ q : Byte, ¬ ((q.val : T) / ((255 : Nat) : T) < 0 ∨ 1 < (q.val : T) / ((255 : Nat) : T))) :
    loadImageBatch (T := T) a r c file =
      .ok (ofFn [a, 1, r, c] (fun idx =>
          ((file.getD (ravel [a, 1, r, c] idx) 255).val : T) / ((255 : Nat) : T)),
        file.drop (a * r * c)) := by
  unfold loadImageBatch
  have e := make_dims hd
  simp only [ints, List.map_cons, List.map_nil, Nat.cast_one] at e
  rw [e]
  simp only [Except.bind_ok', forI_nat, zeros_shapeOf]
  rw [forN_indices3 a r c (fun j k l (st : Tensor T × List Byte) => do
        let (pixel, file') := getByte st.2
        let image ← st.1.setAt [(j : Int), 0, (k : Int), (l : Int)] ((pixel.val : T) / ((255 : Nat) : T))
        let v ← image.at_ [(j : Int), 0, (k : Int), (l : Int)]
        if v < 0 ∨ 1 < v then .error .runtimeError
        return (image, file'))]
  have key := foldlM_seq (indices [a, r, c]) (fun (st : Tensor T × List Byte) idx => do
        let (pixel, file') := getByte st.2
        let image ← st.1.setAt [(idx.getD 0 0 : Int), 0, (idx.getD 1 0 : Int), (idx.getD 2 0 : Int)]
          ((pixel.val : T) / ((255 : Nat) : T))
        let v ← image.at_ [(idx.getD 0 0 : Int), 0, (idx.getD 1 0 : Int), (idx.getD 2 0 : Int)]
        if v < 0 ∨ 1 < v then .error .runtimeError
        return (image, file'))
      (fun p => (ofFn [a, 1, r, c] (fun idx => if ravel [a, 1, r, c] idx < p then
          ((file.getD (ravel [a, 1, r, c] idx) 255).val : T) / ((255 : Nat) : T) else 0), file.drop p)) ?_
  · simp only [Nat.not_lt_zero, if_false, List.drop_zero] at key
    rw [key]
    congr 1
    refine Prod.ext (ofFn_congr fun idx hv => ?_) ?_
    · have := ravel_lt hv
      rw [if_pos (by simpa [mul_assoc] using this)]
    · simp [mul_assoc]
  · intro p hp
    have hp' : p < [a, r, c].prod := by simpa using hp
    obtain ⟨idx, hv, hr', hi⟩ := exists_idx_of_lt hp'
    rw [List.getElem?_eq_getElem hp] at hi
    rw [Option.some.inj hi]
    obtain ⟨j, k, l, rfl, hj, hk, hl⟩ := valid3_iff.1 hv
    have hv4 : ValidIdx [a, 1, r, c] [j, 0, k, l] := valid4_iff.2 ⟨j, 0, k, l, rfl, hj, Nat.one_pos, hk, hl⟩
    have hr4 : ravel [a, 1, r, c] [j, 0, k, l] = p := by rw [ravel_chan]; exact hr'
    simp only [getByte_drop, List.getD_cons_zero, List.getD_cons_succ]
    have e1 : ([(j : Int), 0, (k : Int), (l : Int)] : List Int) = ints [j, 0, k, l] := rfl
    rw [e1, setAt_ofFn hd _ hv4]
    simp only [Except.bind_ok']
    rw [at_ofFn hd _ hv4]
    simp only [Except.bind_ok']
    rw [if_neg (by simpa [upd] using hr (file.getD p 255))]
    simp only [Except.bind_ok', Except.pure_eq']
    congr 1
    refine Prod.ext (ofFn_congr fun i hi' => ?_) rfl
    unfold upd
    split
    · next h => subst h; rw [hr4, if_pos (by omega)]
    · next h =>
      have : ravel [a, 1, r, c] i ≠ p := fun h2 => h (ravel_inj hi' hv4 (h2.trans hr4.symm))
      beta_reduce
      by_cases h3 : ravel [a, 1, r, c] i < p
      · rw [if_pos h3, if_pos (by omega)]
      · rw [if_neg h3, if_neg (by omega)]

/-- Body of the label loop. -/
def labelBody (j : Nat) (st : Tensor T × List Byte) : Res (Tensor T × List Byte) := do
  let (digit, file') := getByte st.2
  let label ← st.1.setAt [(j : Int), (digit.val : Int)] 1
  return (label, file')

/-- State of the label loop after `j` labels. -/
def labelSeq (a : Nat) (file : List Byte) (j : Nat) : Tensor T × List Byte :=
  (ofFn [a, 10] (fun idx => if idx.getD 0 0 < j ∧ (file.getD (idx.getD 0 0) 255).val = idx.getD 1 0
    then (1 : T) else 0), file.drop j)

theorem loadLabelBatch_seq {a : Nat} (hd : Dims [a, 10]) (file : List Byte) {j : Nat} (hj : j < a) :
    (file.getD j 255).val < 10 →
    labelBody j (labelSeq (T := T) a file j) = .ok (labelSeq a file (j + 1)) := by
  intro hq
  unfold labelBody labelSeq
  have hv : ValidIdx [a, 10] [j, (file.getD j 255).val] := valid2_iff.2 ⟨j, _, rfl, hj, hq⟩
  simp only [getByte_drop]
  have e1 : ([(j : Int), ((file.getD j 255).val : Int)] : List Int) = ints [j, (file.getD j 255).val] := rfl
  rw [e1, setAt_ofFn hd _ hv]
  simp only [Except.bind_ok', Except.pure_eq']
  congr 1
  refine Prod.ext (ofFn_congr fun i hi' => ?_) rfl
  obtain ⟨x, y, rfl, hx, hy⟩ := valid2_iff.1 hi'
  simp only [upd, List.getD_cons_zero, List.getD_cons_succ, List.cons.injEq, and_true]
  by_cases h1 : x = j
  · subst h1
    by_cases h2 : (file.getD x 255).val = y
    · rw [if_pos ⟨rfl, h2.symm⟩, if_pos ⟨by omega, h2⟩]
    · rw [if_neg (fun h => h2 h.2.symm), if_neg (fun h => h2 h.2), if_neg (fun h => h2 h.2)]
  · rw [if_neg (fun h => h1 h.1)]
    by_cases h2 : x < j
    · simp [h2, show x < j + 1 by omega]
    · simp [h2, show ¬ x < j + 1 by omega]

theorem loadLabelBatch_ok {a : Nat} (hd : Dims [a, 10]) (file : List Byte)
    (hq : ∀ j < a, (file.getD j 255).val < 10) :
    loadLabelBatch (T := T) a file =
      .ok (ofFn [a, 10] (fun idx => if (file.getD (idx.getD 0 0) 255).val = idx.getD 1 0 then 1 else 0),
        file.drop a) := by
  unfold loadLabelBatch
  have e := make_dims hd
  simp only [ints, List.map_cons, List.map_nil] at e
  rw [show ((10 : Int)) = ((10 : Nat) : Int) from rfl, e]
  simp only [Except.bind_ok', forI_nat, full_shapeOf]
  have key := forN_seq (n := a) (labelBody (T := T)) (labelSeq a file) (fun j hj => loadLabelBatch_seq (T := T) hd file hj (hq j hj))
  simp only [labelSeq, Nat.not_lt_zero, false_and, if_false, List.drop_zero] at key
  refine key.trans ?_
  congr 1
  refine Prod.ext (ofFn_congr fun i hi' => ?_) rfl
  obtain ⟨x, y, rfl, hx, hy⟩ := valid2_iff.1 hi'
  simp [hx]

theorem loadLabelBatch_error {a : Nat} (hd : Dims [a, 10]) (file : List Byte)
    {j0 : Nat} (hj0 : j0 < a) (hq : ∀ j < j0, (file.getD j 255).val < 10) (h0 : 10 ≤ (file.getD j0 255).val) :
    loadLabelBatch (T := T) a file = .error .outOfRange := by
  unfold loadLabelBatch
  have e := make_dims hd
  simp only [ints, List.map_cons, List.map_nil] at e
  rw [show ((10 : Int)) = ((10 : Nat) : Int) from rfl, e]
  simp only [Except.bind_ok', forI_nat, full_shapeOf]
  have key := forN_seq_error (n := a) (labelBody (T := T)) (labelSeq a file) hj0 (e := .outOfRange)
    (fun j hj => loadLabelBatch_seq (T := T) hd file (by omega) (hq j hj)) (by
      simp only [labelBody, labelSeq, getByte_drop]
      unfold Tensor.setAt
      rw [ofFn_shape, computeFlatIndex_range rfl (by
        rintro ⟨idx, h1, h2⟩
        obtain ⟨x, y, rfl, hx, hy⟩ := valid2_iff.1 h2
        simp only [ints, List.map_cons, List.map_nil, List.cons.injEq, and_true, Nat.cast_inj] at h1
        omega)]
      rfl)
  simp only [labelSeq, Nat.not_lt_zero, false_and, if_false, List.drop_zero] at key
  exact key

end
end SmartDNN
