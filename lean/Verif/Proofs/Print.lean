import Verif.Model.Print
import Verif.Proofs.Slices
import Verif.Proofs.Loops

/-!
# Printing
-/

namespace SmartDNN
open Spec

variable {T : Type}

theorem intercalate_snoc (sep x : String) : ∀ l : List String,
    String.intercalate sep (l ++ [x]) = (if 0 < l.length then String.intercalate sep l ++ sep else "") ++ x := by
  intro l
  induction l with
  | nil => simp
  | cons a l ih =>
    cases l with
    | nil => simp [String.intercalate_cons_cons]
    | cons b l =>
      have e : a :: b :: l ++ [x] = a :: b :: (l ++ [x]) := rfl
      have e' : b :: l ++ [x] = b :: (l ++ [x]) := rfl
      rw [e, String.intercalate_cons_cons, ← e', ih, String.intercalate_cons_cons]
      simp [String.append_assoc]

theorem printElements_ok (fmt : T → String) (t : Tensor T) (s : String) : ∀ n, n ≤ t.data.length →
    t.printElements fmt n s = .ok (s ++ String.intercalate ", " ((t.data.take n).map fmt)) := by
  intro n
  induction n with
  | zero => intro _; simp [Tensor.printElements, forN]
  | succ n ih =>
    intro h
    have := ih (by omega)
    unfold Tensor.printElements at this ⊢
    rw [forN_succ, this, Except.bind_ok', rd_lt (by omega), Except.bind_ok', Except.pure_eq', List.take_succ_eq_append_getElem (by omega),
      List.map_append, List.map_cons, List.map_nil, intercalate_snoc]
    simp only [List.length_map, List.length_take, Nat.min_eq_left (show n ≤ t.data.length by omega)]
    rcases Nat.eq_zero_or_pos n with rfl | hn
    · simp
    · rw [if_pos hn, if_pos hn]
      simp [String.append_assoc]

theorem intercalate_toList (l : List String) :
    (String.intercalate ", " l).toList = List.intercalate [',', ' '] (l.map String.toList) := by
  induction l with
  | nil => rfl
  | cons a l ih =>
    cases l with
    | nil => simp
    | cons b l =>
      rw [String.intercalate_cons_cons, String.toList_append, String.toList_append, ih]
      simp [List.intercalate]

/-- Strings without commas can be read back from their comma-separated list, up to a final mark. -/
theorem intercalate_inj : ∀ (l m : List (List Char)) (r s : List Char), (∀ x ∈ l, ∀ c ∈ x, c ≠ ',' ∧ c ≠ ']') →
    (∀ x ∈ m, ∀ c ∈ x, c ≠ ',' ∧ c ≠ ']') → l ≠ [] → m ≠ [] →
    List.intercalate [',', ' '] l ++ ']' :: r = List.intercalate [',', ' '] m ++ ']' :: s → l = m ∧ r = s := by
  have cons2 : ∀ (a b : List Char) (l : List (List Char)), List.intercalate [',', ' '] (a :: b :: l) =
      a ++ ',' :: ' ' :: List.intercalate [',', ' '] (b :: l) := by
    intro a b l
    simp [List.intercalate]
  have one : ∀ a : List Char, List.intercalate [',', ' '] [a] = a := by
    intro a
    simp [List.intercalate]
  intro l
  induction l with
  | nil => intro m r s _ _ h; exact absurd rfl h
  | cons a l ih =>
    intro m r s hl hm _ hne h
    cases m with
    | nil => exact absurd rfl hne
    | cons b m =>
      have ha : ∀ c ∈ a, ¬ (c = ',' ∨ c = ']') := fun c hc => not_or.2 (hl a (by simp) c hc)
      have hb : ∀ c ∈ b, ¬ (c = ',' ∨ c = ']') := fun c hc => not_or.2 (hm b (by simp) c hc)
      cases l with
      | nil =>
        cases m with
        | nil =>
          rw [one, one] at h
          have := split_at (fun c => c = ',' ∨ c = ']') ha hb (by simp) (by simp) h
          exact ⟨by rw [this.1], this.2.2⟩
        | cons b' m =>
          rw [one, cons2, List.append_assoc, List.cons_append] at h
          have := split_at (fun c => c = ',' ∨ c = ']') ha hb (by simp) (by simp) h
          exact absurd this.2.1 (by decide)
      | cons a' l =>
        cases m with
        | nil =>
          rw [one, cons2, List.append_assoc, List.cons_append] at h
          have := split_at (fun c => c = ',' ∨ c = ']') ha hb (by simp) (by simp) h
          exact absurd this.2.1 (by decide)
        | cons b' m =>
          rw [cons2, cons2, List.append_assoc, List.append_assoc, List.cons_append, List.cons_append] at h
          have h1 := split_at (fun c => c = ',' ∨ c = ']') ha hb (by simp) (by simp) h
          have h2 : List.intercalate [',', ' '] (a' :: l) ++ ']' :: r = List.intercalate [',', ' '] (b' :: m) ++ ']' :: s :=
            (List.cons.inj h1.2.2).2
          obtain ⟨h3, h4⟩ := ih (b' :: m) r s (fun x hx => hl x (by simp [hx])) (fun x hx => hm x (by simp [hx]))
            (by simp) (by simp) h2
          exact ⟨by rw [h1.1, h3], h4⟩

theorem printed_append_inj {a b : List Nat} {r s : List Char} (ha : a ≠ []) (hb : b ≠ []) (h : printed a ++ r = printed b ++ s) :
    a = b ∧ r = s := by
  have nc : ∀ n, ∀ c ∈ Nat.toDigits 10 n, ¬ (c = ',' ∨ c = ')') := by
    rintro n c hc (rfl | rfl)
    · exact comma_notMem n hc
    · exact paren_notMem n hc
  induction a generalizing b with
  | nil => exact absurd rfl ha
  | cons d a ih =>
    cases b with
    | nil => exact absurd rfl hb
    | cons e b =>
      cases a with
      | nil =>
        cases b with
        | nil =>
          simp only [printed, List.append_assoc, List.cons_append, List.nil_append] at h
          have := split_at (fun c => c = ',' ∨ c = ')') (nc d) (nc e) (by simp) (by simp) h
          exact ⟨by rw [toDigits_inj this.1], this.2.2⟩
        | cons e' b =>
          simp only [printed, List.append_assoc, List.cons_append, List.nil_append] at h
          have := split_at (fun c => c = ',' ∨ c = ')') (nc d) (nc e) (by simp) (by simp) h
          exact absurd this.2.1 (by decide)
      | cons d' a =>
        cases b with
        | nil =>
          simp only [printed, List.append_assoc, List.cons_append, List.nil_append] at h
          have := split_at (fun c => c = ',' ∨ c = ')') (nc d) (nc e) (by simp) (by simp) h
          exact absurd this.2.1 (by decide)
        | cons e' b =>
          simp only [printed, List.append_assoc, List.cons_append, List.nil_append] at h
          have := split_at (fun c => c = ',' ∨ c = ')') (nc d) (nc e) (by simp) (by simp) h
          obtain ⟨h1, h2⟩ := ih (b := e' :: b) (by simp) (by simp) (by simpa using this.2.2)
          exact ⟨by rw [toDigits_inj this.1, h1], h2⟩

end SmartDNN
