import Verif.Proofs.Flatten
import Mathlib.Order.Defs.LinearOrder

/-!
# Lemmas about max pooling
-/

namespace SmartDNN
open Spec

/-- A running maximum with strict comparison keeps the first maximal element. -/
theorem foldl_firstMax {α β T : Type} [LinearOrder T] (L : List α) (val : α → T) (emb : α → β) (init : T × β) :
    (L.foldl (fun st a => if st.1 < val a then (val a, emb a) else st) init = init ∧ ∀ a ∈ L, val a ≤ init.1) ∨
    ∃ L1 a L2, L = L1 ++ a :: L2 ∧
      L.foldl (fun st a => if st.1 < val a then (val a, emb a) else st) init = (val a, emb a) ∧
      init.1 < val a ∧ (∀ b ∈ L1, val b < val a) ∧ ∀ b ∈ L2, val b ≤ val a := by
  induction L generalizing init with
  | nil => left; simp
  | cons c L ih =>
    simp only [List.foldl_cons]
    by_cases hc : init.1 < val c
    · rw [if_pos hc]
      right
      rcases ih (val c, emb c) with ⟨h1, h2⟩ | ⟨L1, a, L2, rfl, h2, h3, h4, h5⟩
      · exact ⟨[], c, L, rfl, h1, hc, by simp, h2⟩
      · refine ⟨c :: L1, a, L2, rfl, h2, lt_trans hc h3, ?_, h5⟩
        intro b hb
        rcases List.mem_cons.1 hb with rfl | hb
        · exact h3
        · exact h4 b hb
    · rw [if_neg hc]
      rcases ih init with ⟨h1, h2⟩ | ⟨L1, a, L2, rfl, h2, h3, h4, h5⟩
      · left
        refine ⟨h1, ?_⟩
        intro a ha
        rcases List.mem_cons.1 ha with rfl | ha
        · exact not_lt.1 hc
        · exact h2 a ha
      · right
        refine ⟨c :: L1, a, L2, rfl, h2, h3, ?_, h5⟩
        intro b hb
        rcases List.mem_cons.1 hb with rfl | hb
        · exact lt_of_le_of_lt (not_lt.1 hc) h3
        · exact h4 b hb

theorem pairwise_indices (ds : List Nat) : (indices ds).Pairwise (fun a b => ravel ds a < ravel ds b) := by
  have h : (indices ds).map (ravel ds) = List.range ds.prod := by
    apply List.ext_getElem (by simp)
    intro k h1 h2
    simp only [List.length_range] at h2
    obtain ⟨idx, hv, hr, hi⟩ := exists_idx_of_lt h2
    simp only [List.getElem_range, List.getElem_map]
    have : (indices ds)[k]'(by simpa using h2) = idx := by
      have := indices_ravel hv
      rw [hr] at this
      exact (List.getElem?_eq_some_iff.1 this).2
    rw [this, hr]
  have := List.pairwise_lt_range (n := ds.prod)
  rw [← h, List.pairwise_map] at this
  exact this

section
variable {T : Type} [LinearOrder T]

theorem forN_skip {σ : Type} (n : Nat) (s : σ) : forN n s (fun _ s => (.ok s : Res σ)) = .ok s := by
  have := forN_ok (n := n) (s := s) (f := fun _ s => (.ok s : Res σ)) (fun _ s => s) (fun _ _ _ => rfl)
  rw [this]
  congr 1
  generalize List.range n = l
  induction l <;> simp_all

theorem ints4 (i j y x : Nat) : ints [i, j, y, x] = [(i : Int), (j : Int), (y : Int), (x : Int)] := rfl

/-- `findMaxInPoolWindow` on a valid window: the first row-major maximum, if some cell exceeds the initial
value. -/
theorem findMax_ofFn {n c h w p s i j oh ow : Nat} (hd : Dims [n, c, h, w]) (f : List Nat → T) (ninf : T)
    (inp : Option (Tensor T)) (hi : i < n) (hj : j < c) :
    ∃ r : T × Int × Int,
      (⟨p, s, 0, ninf, inp⟩ : MaxPool T).findMax (ofFn [n, c, h, w] f) i j oh ow = .ok r ∧
      ((r = (ninf, 0, 0) ∧ ∀ y x, InWindow p s h w oh ow y x → f [i, j, y, x] ≤ ninf) ∨
        ∃ y x : Nat, r = (f [i, j, y, x], (y : Int), (x : Int)) ∧ ninf < f [i, j, y, x] ∧
          IsFirstMax p s h w (fun y x => f [i, j, y, x]) oh ow y x) := by
  let cond : List Nat → Bool := fun a => decide (oh * s + a.getD 0 0 < h ∧ ow * s + a.getD 1 0 < w)
  let val : List Nat → T := fun a => f [i, j, oh * s + a.getD 0 0, ow * s + a.getD 1 0]
  let emb : List Nat → Int × Int := fun a => (((oh * s + a.getD 0 0 : Nat) : Int), ((ow * s + a.getD 1 0 : Nat) : Int))
  let L := (indices [p, p]).filter cond
  have key : (⟨p, s, 0, ninf, inp⟩ : MaxPool T).findMax (ofFn [n, c, h, w] f) i j oh ow =
      .ok (L.foldl (fun st a => if st.1 < val a then (val a, emb a) else st) (ninf, (0, 0))) := by
    unfold MaxPool.findMax
    simp only [ofFn_shape, get2, get3, Except.bind_ok', forI_nat, sub_zero]
    have hcast : ∀ a b : Nat, ((oh : Int) * (s : Int) + (b : Int) ≥ (a : Int)) ↔ ¬ (oh * s + b < a) := by
      intro a b; rw [ge_iff_le, not_lt]; norm_cast
    have hcast' : ∀ a b : Nat, ((ow : Int) * (s : Int) + (b : Int) ≥ (a : Int)) ↔ ¬ (ow * s + b < a) := by
      intro a b; rw [ge_iff_le, not_lt]; norm_cast
    have h1 : ∀ (ph : Nat) (st : T × Int × Int), ph < p →
        (if (oh : Int) * (s : Int) + (ph : Int) ≥ (h : Int) then (.ok st : Res (T × Int × Int))
         else forN p st (fun pw st =>
          if (ow : Int) * (s : Int) + (pw : Int) ≥ (w : Int) then .ok st
          else do
            let v ← (ofFn [n, c, h, w] f).at_ [(i : Int), (j : Int), (oh : Int) * s + ph, (ow : Int) * s + pw]
            return if st.1 < v then (v, (oh : Int) * s + ph, (ow : Int) * s + pw) else st)) =
        forN p st (fun pw st => .ok (if cond [ph, pw] then
          (if st.1 < val [ph, pw] then (val [ph, pw], emb [ph, pw]) else st) else st)) := by
      intro ph st hph
      by_cases hh : oh * s + ph < h
      · rw [if_neg (by rw [hcast]; exact fun hn => hn hh)]
        apply forN_congr
        intro pw hpw st
        by_cases hw : ow * s + pw < w
        · rw [if_neg (by rw [hcast']; exact fun hn => hn hw)]
          have hv : ValidIdx [n, c, h, w] [i, j, oh * s + ph, ow * s + pw] :=
            valid4_iff.2 ⟨_, _, _, _, rfl, hi, hj, hh, hw⟩
          have ha := at_ofFn hd f hv
          rw [ints4] at ha
          push_cast at ha
          rw [ha]
          simp only [cond, val, emb, List.getD_cons_zero, List.getD_cons_succ, hh, hw, and_self, decide_true, if_true,
            Except.bind_ok', Except.pure_eq']
          push_cast
          rfl
        · rw [if_pos (by rw [hcast']; exact hw)]
          have : cond [ph, pw] = false := by simp [cond, hw]
          rw [this]
          rfl
      · rw [if_pos (by rw [hcast]; exact hh)]
        rw [forN_congr (g := fun _ st => .ok st)]
        · rw [forN_skip]
        · intro pw _ st
          have : cond [ph, pw] = false := by simp [cond, hh]
          rw [this]
          rfl
    rw [forN_congr (g := fun ph st => forN p st (fun pw st => .ok (if cond [ph, pw] then
          (if st.1 < val [ph, pw] then (val [ph, pw], emb [ph, pw]) else st) else st))) (fun ph hph st => h1 ph st hph)]
    refine (forN_indices2 _ _ _ _).trans ?_
    refine (foldlM_inv (mk := fun st : T × Int × Int => st) (step := fun st a => if cond a then
          (if st.1 < val a then (val a, emb a) else st) else st) (ninf, (0, 0)) ?_).trans ?_
    · intro a ha st
      obtain ⟨y, x, rfl, _, _⟩ := valid2_iff.1 (mem_indices.1 ha)
      rfl
    · simp only [L, List.foldl_filter]
  refine ⟨_, key, ?_⟩
  have hmem : ∀ a, a ∈ L ↔ ∃ y x, a = [y, x] ∧ y < p ∧ x < p ∧ oh * s + y < h ∧ ow * s + x < w := by
    intro a
    simp only [L, List.mem_filter, mem_indices, valid2_iff, cond, decide_eq_true_eq]
    constructor
    · rintro ⟨⟨y, x, rfl, h1, h2⟩, h3⟩
      exact ⟨y, x, rfl, h1, h2, h3⟩
    · rintro ⟨y, x, rfl, h1, h2, h3⟩
      exact ⟨⟨y, x, rfl, h1, h2⟩, h3⟩
  have hwin : ∀ y x, InWindow p s h w oh ow y x →
      ∃ y0 x0, y = oh * s + y0 ∧ x = ow * s + x0 ∧ [y0, x0] ∈ L := by
    rintro y x ⟨h1, h2, h3, h4, h5, h6⟩
    refine ⟨y - oh * s, x - ow * s, by omega, by omega, (hmem _).2 ⟨_, _, rfl, by omega, by omega, by omega, by omega⟩⟩
  have hpw : L.Pairwise (fun a b => ravel [p, p] a < ravel [p, p] b) := (pairwise_indices [p, p]).filter _
  rcases foldl_firstMax L val emb (ninf, (0, 0)) with ⟨h1, h2⟩ | ⟨L1, a, L2, hL, h2, h3, h4, h5⟩
  · left
    refine ⟨h1, ?_⟩
    intro y x hw
    obtain ⟨y0, x0, rfl, rfl, hm⟩ := hwin y x hw
    exact h2 _ hm
  · right
    obtain ⟨y0, x0, rfl, hy, hx, hyh, hxw⟩ := (hmem a).1 (by rw [hL]; simp)
    refine ⟨oh * s + y0, ow * s + x0, ?_, h3, ?_, ?_, ?_⟩
    · exact h2
    · exact ⟨by omega, by omega, hyh, by omega, by omega, hxw⟩
    · intro y x hw
      obtain ⟨y1, x1, rfl, rfl, hm⟩ := hwin y x hw
      rw [hL] at hm
      rcases List.mem_append.1 hm with hm | hm
      · exact (h4 _ hm).le
      · rcases List.mem_cons.1 hm with hm | hm
        · simp only [List.cons.injEq, and_true] at hm
          rw [hm.1, hm.2]
        · exact h5 _ hm
    · intro y x hw hlt
      obtain ⟨y1, x1, rfl, rfl, hm⟩ := hwin y x hw
      obtain ⟨_, _, he, hy1, hx1, _, _⟩ := (hmem _).1 hm
      simp only [List.cons.injEq, and_true] at he
      obtain ⟨rfl, rfl⟩ := he
      have hrav : ravel [p, p] [y1, x1] < ravel [p, p] [y0, x0] := by
        rw [ravel2, ravel2]
        rcases hlt with hlt | ⟨heq, hlt⟩
        · have h1 : y1 + 1 ≤ y0 := by omega
          have := Nat.mul_le_mul_right p h1
          rw [Nat.add_mul, Nat.one_mul] at this
          omega
        · have : y1 = y0 := by omega
          subst this
          omega
      rw [hL] at hm hpw
      rcases List.mem_append.1 hm with hm | hm
      · exact h4 _ hm
      · exfalso
        rcases List.mem_cons.1 hm with hm | hm
        · rw [hm] at hrav
          exact lt_irrefl _ hrav
        · have := (List.pairwise_cons.1 (List.pairwise_append.1 hpw).2.1).1 _ hm
          omega

theorem outDim_pool {p s h : Nat} (ninf : T) (inp : Option (Tensor T)) (hs : 0 < s) (hh : p ≤ h ∨ p - h < s) :
    (⟨p, s, 0, ninf, inp⟩ : MaxPool T).outDim (h : Int) = .ok ((poolOut p s h : Nat) : Int) := by
  unfold MaxPool.outDim poolOut
  rw [if_neg (by simp only; omega)]
  congr 1
  simp only
  by_cases hp : p ≤ h
  · rw [if_pos hp, ← Nat.cast_sub hp, Int.tdiv_eq_ediv_of_nonneg (by omega)]
    push_cast
    rw [Nat.cast_sub hp]
  · rw [if_neg hp]
    have h1 : ((h : Int) - (p : Int)) = -((p - h : Nat) : Int) := by omega
    have h2 : p - h < s := by omega
    rw [h1, Int.neg_tdiv, Int.tdiv_eq_ediv_of_nonneg (by omega), Int.ediv_eq_zero_of_lt (by omega) (by omega)]
    rfl

theorem poolOut_window {p s h o : Nat} (hs : 0 < s) (hp : 0 < p) (hh : 0 < h) (ho : o < poolOut p s h) :
    o * s < h ∧ (p ≤ h → o * s + p ≤ h) := by
  unfold poolOut at ho
  by_cases h1 : p ≤ h
  · rw [if_pos h1] at ho
    have h2 : o * s ≤ h - p := le_trans (Nat.mul_le_mul_right s (Nat.lt_succ_iff.1 ho)) (Nat.div_mul_le_self _ _)
    omega
  · rw [if_neg h1] at ho
    have : o = 0 := by omega
    subst this
    omega

end
end SmartDNN
