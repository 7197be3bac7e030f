import Verif.Proofs.Shape
import Mathlib.Data.List.GetD

/-! Lemmas about broadcasting of shapes. -/

namespace SmartDNN
open Spec

theorem dimR_of_ge {ds : List Nat} {i : Nat} (h : ds.length ≤ i) : dimR ds i = 1 := by
  unfold dimR
  rw [List.getD_eq_default _ _ (by simpa using h)]

theorem dimR_of_lt {ds : List Nat} {i : Nat} (h : i < ds.length) :
    dimR ds i = ds[ds.length - 1 - i]'(by omega) := by
  unfold dimR
  rw [List.getD_eq_getElem _ _ (by simpa using h), List.getElem_reverse]

theorem dimR_pos {ds : List Nat} (h : ∀ d ∈ ds, 0 < d) (i : Nat) : 0 < dimR ds i := by
  by_cases hi : i < ds.length
  · rw [dimR_of_lt hi]; exact h _ (List.getElem_mem _)
  · rw [dimR_of_ge (by omega)]; omega

theorem dimR_ext {a b : List Nat} (hl : a.length = b.length) (h : ∀ i, dimR a i = dimR b i) :
    a = b := by
  rw [← List.reverse_inj]
  apply List.ext_getElem (by simpa using hl)
  intro i h1 h2
  have := h i
  unfold dimR at this
  rwa [List.getD_eq_getElem _ _ h1, List.getD_eq_getElem _ _ h2] at this

@[simp] theorem bdims_length (a b : List Nat) : (bdims a b).length = max a.length b.length := by
  simp [bdims]

theorem dimR_bdims {a b : List Nat} (ha : ∀ d ∈ a, 0 < d) (hb : ∀ d ∈ b, 0 < d) (i : Nat) :
    dimR (bdims a b) i = max (dimR a i) (dimR b i) := by
  by_cases h : i < max a.length b.length
  · unfold bdims
    unfold dimR at *
    rw [List.reverse_reverse, List.getD_eq_getElem _ _ (by simpa using h)]
    simp
  · rw [dimR_of_ge (by simp; omega), dimR_of_ge (by omega), dimR_of_ge (by omega)]; simp

theorem bdims_pos {a b : List Nat} (ha : ∀ d ∈ a, 0 < d) : ∀ d ∈ bdims a b, 0 < d := by
  intro d hd
  simp only [bdims, List.mem_reverse, List.mem_map] at hd
  obtain ⟨i, _, rfl⟩ := hd
  have := dimR_pos ha i
  omega

theorem bdims_ne {a b : List Nat} (ha : a ≠ []) : bdims a b ≠ [] := by
  intro h
  have h2 := congrArg List.length h
  rw [bdims_length] at h2
  simp at h2
  exact ha h2.1

theorem dimFromRight_shapeOf (ds : List Nat) (i : Nat) :
    (shapeOf ds).dimFromRight i = .ok (dimR ds i : Int) := by
  unfold Shape.dimFromRight Shape.get
  simp only [shapeOf_rank]
  by_cases h : i < ds.length
  · rw [if_pos h, dimR_of_lt h]
    apply rd_some
    simp [ints_getElem?]
  · rw [if_neg h, dimR_of_ge (by omega)]; rfl

theorem areBroadcastable_shapeOf (a b : List Nat) [Decidable (Compat a b)] :
    areBroadcastable (shapeOf a) (shapeOf b) = .ok (decide (Compat a b)) := by
  unfold areBroadcastable
  have key : ∀ n, forN n true (fun i ok => do
      if ok then
        let dimA ← (shapeOf a).dimFromRight i
        let dimB ← (shapeOf b).dimFromRight i
        return !(dimA != dimB && dimA != 1 && dimB != 1)
      else return false) = (.ok (decide (∀ i < n, dimR a i = dimR b i ∨ dimR a i = 1 ∨ dimR b i = 1)) : Res Bool) := by
    intro n
    induction n with
    | zero => simp
    | succ n ih =>
      rw [forN_succ, ih]
      simp only [Except.bind_ok', dimFromRight_shapeOf, Except.pure_eq']
      by_cases h : ∀ i < n, dimR a i = dimR b i ∨ dimR a i = 1 ∨ dimR b i = 1
      · rw [decide_eq_true h]
        simp only [if_true]
        congr 1
        rw [Bool.eq_iff_iff]
        simp only [Bool.not_eq_true', Bool.and_eq_false_iff, bne_eq_false_iff_eq, decide_eq_true_eq]
        constructor
        · intro h1 i hi
          rcases Nat.lt_succ_iff_lt_or_eq.1 hi with hi | rfl
          · exact h i hi
          · rcases h1 with (h1 | h1) | h1
            · exact Or.inl (by exact_mod_cast h1)
            · exact Or.inr (Or.inl (by exact_mod_cast h1))
            · exact Or.inr (Or.inr (by exact_mod_cast h1))
        · intro h1
          rcases h1 n (by omega) with h1 | h1 | h1
          · exact Or.inl (Or.inl (by exact_mod_cast h1))
          · exact Or.inl (Or.inr (by exact_mod_cast h1))
          · exact Or.inr (by exact_mod_cast h1)
      · rw [decide_eq_false h]
        simp only [Bool.false_eq_true, if_false]
        congr 1
        symm
        rw [decide_eq_false_iff_not]
        intro h2
        exact h (fun i hi => h2 i (by omega))
  have := key (max (shapeOf a).rank (shapeOf b).rank)
  refine this.trans ?_
  congr 1
  rw [decide_eq_decide]
  simp only [shapeOf_rank, Compat]
  constructor
  · intro h i
    by_cases hi : i < max a.length b.length
    · exact h i hi
    · left; rw [dimR_of_ge (by omega), dimR_of_ge (by omega)]
  · intro h i _; exact h i

theorem Spec.Compat.symm {a b : List Nat} (h : Compat a b) : Compat b a := by
  intro i
  rcases h i with h | h | h
  · exact Or.inl h.symm
  · exact Or.inr (Or.inr h)
  · exact Or.inr (Or.inl h)

theorem bcast_loop_ok {a b : List Nat} (ha : ∀ d ∈ a, 0 < d) (hb : ∀ d ∈ b, 0 < d) (n : Nat)
    (h : ∀ i < n, dimR a i = dimR b i ∨ dimR a i = 1 ∨ dimR b i = 1) :
    forN n ([] : List Int) (fun i result => do
      let dim1 ← (shapeOf a).dimFromRight i
      let dim2 ← (shapeOf b).dimFromRight i
      if dim1 = dim2 then return result ++ [dim1]
      else if dim1 = 1 then return result ++ [dim2]
      else if dim2 = 1 then return result ++ [dim1]
      else throw .invalidArgument) =
    .ok (ints ((List.range n).map (fun i => max (dimR a i) (dimR b i)))) := by
  induction n with
  | zero => rfl
  | succ n ih =>
    rw [forN_succ, ih (fun i hi => h i (by omega))]
    simp only [Except.bind_ok', dimFromRight_shapeOf, Except.pure_eq', Except.throw_eq']
    have hpa := dimR_pos ha n
    have hpb := dimR_pos hb n
    rw [List.range_succ, List.map_append, ints_append]
    simp only [List.map_cons, List.map_nil, ints_cons, ints_nil]
    rcases h n (by omega) with h1 | h1 | h1
    · rw [if_pos (by exact_mod_cast h1), h1]; simp
    · by_cases h2 : dimR a n = dimR b n
      · rw [if_pos (by exact_mod_cast h2), h2]; simp
      · rw [if_neg (by exact_mod_cast h2), if_pos (by exact_mod_cast h1), h1,
          Nat.max_eq_right (by omega)]
    · by_cases h2 : dimR a n = dimR b n
      · rw [if_pos (by exact_mod_cast h2), h2]; simp
      · by_cases h3 : dimR a n = 1
        · rw [if_neg (by exact_mod_cast h2), if_pos (by exact_mod_cast h3), h3,
            Nat.max_eq_right (by omega)]
        · rw [if_neg (by exact_mod_cast h2), if_neg (by exact_mod_cast h3),
            if_pos (by exact_mod_cast h1), h1, Nat.max_eq_left (by omega)]

theorem bcast_loop_err {a b : List Nat} (n : Nat)
    (h : ¬ ∀ i < n, dimR a i = dimR b i ∨ dimR a i = 1 ∨ dimR b i = 1) :
    forN n ([] : List Int) (fun i result => do
      let dim1 ← (shapeOf a).dimFromRight i
      let dim2 ← (shapeOf b).dimFromRight i
      if dim1 = dim2 then return result ++ [dim1]
      else if dim1 = 1 then return result ++ [dim2]
      else if dim2 = 1 then return result ++ [dim1]
      else throw .invalidArgument) = .error .invalidArgument := by
  induction n with
  | zero => simp at h
  | succ n ih =>
    rw [forN_succ]
    by_cases h1 : ∀ i < n, dimR a i = dimR b i ∨ dimR a i = 1 ∨ dimR b i = 1
    · have h2 : ¬ (dimR a n = dimR b n ∨ dimR a n = 1 ∨ dimR b n = 1) := by
        intro h2; apply h; intro i hi
        rcases Nat.lt_succ_iff_lt_or_eq.1 hi with hi | rfl
        · exact h1 i hi
        · exact h2
      push Not at h2
      have key : ∀ s : List Int, (do
          let dim1 ← (shapeOf a).dimFromRight n
          let dim2 ← (shapeOf b).dimFromRight n
          if dim1 = dim2 then return s ++ [dim1]
          else if dim1 = 1 then return s ++ [dim2]
          else if dim2 = 1 then return s ++ [dim1]
          else throw .invalidArgument : Res (List Int)) = .error .invalidArgument := by
        intro s
        simp only [Except.bind_ok', dimFromRight_shapeOf, Except.pure_eq', Except.throw_eq']
        rw [if_neg (by exact_mod_cast h2.1), if_neg (by exact_mod_cast h2.2.1),
          if_neg (by exact_mod_cast h2.2.2)]
      have : ∀ x : Res (List Int), (∃ s, x = .ok s) ∨ x = .error .invalidArgument →
          (x >>= fun s => (do
            let dim1 ← (shapeOf a).dimFromRight n
            let dim2 ← (shapeOf b).dimFromRight n
            if dim1 = dim2 then return s ++ [dim1]
            else if dim1 = 1 then return s ++ [dim2]
            else if dim2 = 1 then return s ++ [dim1]
            else throw .invalidArgument : Res (List Int))) = .error .invalidArgument := by
        rintro x (⟨s, rfl⟩ | rfl)
        · simp only [Except.bind_ok']; exact key s
        · rfl
      apply this
      left
      have := @forN_inv _ n ([] : List Int) (fun i result => do
          let dim1 ← (shapeOf a).dimFromRight i
          let dim2 ← (shapeOf b).dimFromRight i
          if dim1 = dim2 then return result ++ [dim1]
          else if dim1 = 1 then return result ++ [dim2]
          else if dim2 = 1 then return result ++ [dim1]
          else throw .invalidArgument) (fun _ _ => True) trivial (by
            intro i s hi _
            simp only [Except.bind_ok', dimFromRight_shapeOf, Except.pure_eq', Except.throw_eq']
            split_ifs with h3 h4 h5
            · exact ⟨_, rfl, trivial⟩
            · exact ⟨_, rfl, trivial⟩
            · exact ⟨_, rfl, trivial⟩
            · exfalso
              rcases h1 i hi with h6 | h6 | h6
              · exact h3 (by exact_mod_cast h6)
              · exact h4 (by exact_mod_cast h6)
              · exact h5 (by exact_mod_cast h6))
      obtain ⟨s', hs', _⟩ := this
      exact ⟨s', hs'⟩
    · rw [ih h1]; rfl

theorem compat_iff_lt {a b : List Nat} :
    Compat a b ↔ ∀ i < max a.length b.length, dimR a i = dimR b i ∨ dimR a i = 1 ∨ dimR b i = 1 := by
  constructor
  · intro h i _; exact h i
  · intro h i
    by_cases hi : i < max a.length b.length
    · exact h i hi
    · left; rw [dimR_of_ge (by omega), dimR_of_ge (by omega)]

instance (a b : List Nat) : Decidable (Compat a b) := decidable_of_iff _ compat_iff_lt.symm

theorem broadcastShapes_compat {a b : List Nat} (ha : ∀ d ∈ a, 0 < d) (hb : ∀ d ∈ b, 0 < d)
    (h : Compat a b) :
    broadcastShapes (shapeOf a) (shapeOf b) = Shape.make (ints (bdims a b)) := by
  unfold broadcastShapes
  simp only [shapeOf_rank]
  rw [bcast_loop_ok ha hb _ (compat_iff_lt.1 h)]
  simp only [Except.bind_ok']
  rw [← ints_reverse]
  rfl

theorem broadcastShapes_ok {a b : List Nat} (ha : ∀ d ∈ a, 0 < d) (hb : ∀ d ∈ b, 0 < d) (hne : a ≠ [])
    (h : Compat a b) (hl : (bdims a b).prod < sizeMod) :
    broadcastShapes (shapeOf a) (shapeOf b) = .ok (shapeOf (bdims a b)) := by
  rw [broadcastShapes_compat ha hb h, make_ints (bdims_ne hne) (bdims_pos ha) hl]

theorem broadcastShapes_err {a b : List Nat} (h : ¬ Compat a b) :
    broadcastShapes (shapeOf a) (shapeOf b) = .error .invalidArgument := by
  unfold broadcastShapes
  simp only [shapeOf_rank]
  rw [bcast_loop_err _ (fun h2 => h (compat_iff_lt.2 h2))]
  rfl

theorem bdims_comm (a b : List Nat) : bdims a b = bdims b a := by
  unfold bdims
  rw [Nat.max_comm]
  simp only [Nat.max_comm]

theorem bdims_self {a : List Nat} (ha : ∀ d ∈ a, 0 < d) : bdims a a = a := by
  apply dimR_ext (by simp)
  intro i; rw [dimR_bdims ha ha]; simp

theorem compat_self (a : List Nat) : Compat a a := fun _ => Or.inl rfl

theorem bdims_assoc {a b c : List Nat} (ha : ∀ d ∈ a, 0 < d) (hb : ∀ d ∈ b, 0 < d) (hc : ∀ d ∈ c, 0 < d) :
    bdims (bdims a b) c = bdims a (bdims b c) := by
  apply dimR_ext
  · simp [Nat.max_assoc]
  · intro i
    rw [dimR_bdims (bdims_pos ha) hc, dimR_bdims ha hb, dimR_bdims ha (bdims_pos hb),
      dimR_bdims hb hc, Nat.max_assoc]

theorem compat_assoc {a b c : List Nat} (ha : ∀ d ∈ a, 0 < d) (hb : ∀ d ∈ b, 0 < d) (hc : ∀ d ∈ c, 0 < d) :
    (Compat a b ∧ Compat (bdims a b) c) ↔ (Compat b c ∧ Compat a (bdims b c)) := by
  have key : (Compat a b ∧ Compat (bdims a b) c) ↔ (∀ i, (dimR a i = dimR b i ∨ dimR a i = 1 ∨ dimR b i = 1) ∧
      (dimR b i = dimR c i ∨ dimR b i = 1 ∨ dimR c i = 1) ∧ (dimR a i = dimR c i ∨ dimR a i = 1 ∨ dimR c i = 1)) := by
    constructor
    · rintro ⟨h1, h2⟩ i
      have h3 := h1 i
      have h4 := h2 i
      rw [dimR_bdims ha hb] at h4
      have := dimR_pos ha i; have := dimR_pos hb i; have := dimR_pos hc i
      omega
    · intro h
      refine ⟨fun i => (h i).1, fun i => ?_⟩
      have h1 := h i
      rw [dimR_bdims ha hb]
      have := dimR_pos ha i; have := dimR_pos hb i; have := dimR_pos hc i
      omega
  rw [key]
  constructor
  · intro h
    refine ⟨fun i => (h i).2.1, fun i => ?_⟩
    have h1 := h i
    rw [dimR_bdims hb hc]
    have := dimR_pos ha i; have := dimR_pos hb i; have := dimR_pos hc i
    omega
  · rintro ⟨h1, h2⟩ i
    have h3 := h1 i
    have h4 := h2 i
    rw [dimR_bdims hb hc] at h4
    have := dimR_pos ha i; have := dimR_pos hb i; have := dimR_pos hc i
    omega

theorem stretches_bdims_left {a b : List Nat} (ha : ∀ d ∈ a, 0 < d) (hb : ∀ d ∈ b, 0 < d)
    (h : Compat a b) : Stretches a (bdims a b) := by
  refine ⟨by simp, fun i => ?_⟩
  rw [dimR_bdims ha hb]
  have := h i
  have := dimR_pos ha i; have := dimR_pos hb i
  omega

theorem stretches_bdims_right {a b : List Nat} (ha : ∀ d ∈ a, 0 < d) (hb : ∀ d ∈ b, 0 < d)
    (h : Compat a b) : Stretches b (bdims a b) := by
  rw [bdims_comm]; exact stretches_bdims_left hb ha h.symm

theorem Spec.Stretches.compat {a r : List Nat} (h : Stretches a r) : Compat a r := by
  intro i
  rcases h.2 i with h | h
  · exact Or.inl h
  · exact Or.inr (Or.inl h)

end SmartDNN
