import Verif.Model.Basic
import Mathlib.Data.List.Basic

/-! Lemmas about raw accesses and counted loops. -/

namespace SmartDNN

section
variable {σ T : Type _}

@[simp] theorem Except.bind_ok' {ε α β : Type _} (a : α) (f : α → Except ε β) :
    (Except.ok a >>= f) = f a := (rfl)
@[simp] theorem Except.bind_error' {ε α β : Type _} (e : ε) (f : α → Except ε β) :
    ((Except.error e : Except ε α) >>= f) = Except.error e := (rfl)
@[simp] theorem Except.pure_eq' {ε α : Type _} (a : α) : (pure a : Except ε α) = Except.ok a := rfl
@[simp] theorem Except.throw_eq' {ε α : Type _} (e : ε) :
    (throw e : Except ε α) = Except.error e := rfl

@[simp] theorem Except.bind_ok_eta {ε α : Type _} (x : Except ε α) :
    (x >>= fun a => Except.ok a) = x := by cases x <;> rfl

theorem rd_nat (d : List T) (n : Nat) : rd d (n : Int) =
    match d[n]? with | some x => .ok x | none => .error .ub := by
  simp only [rd, Int.natCast_nonneg, if_true, Int.toNat_natCast]
  cases d[n]? <;> rfl

theorem rd_some {d : List T} {n : Nat} {x : T} (h : d[n]? = some x) : rd d (n : Int) = .ok x := by
  simp [rd_nat, h]

theorem rd_lt {d : List T} {n : Nat} (h : n < d.length) : rd d (n : Int) = .ok d[n] :=
  rd_some (List.getElem?_eq_getElem h)

theorem wr_lt {d : List T} {n : Nat} (h : n < d.length) (x : T) :
    wr d (n : Int) x = .ok (d.set n x) := by
  simp [wr, h]

@[simp] theorem forN_zero (s : σ) (f : Nat → σ → Res σ) : forN 0 s f = .ok s := rfl

theorem forN_succ (n : Nat) (s : σ) (f : Nat → σ → Res σ) :
    forN (n + 1) s f = forN n s f >>= fun s' => f n s' := by
  simp [forN, List.range_succ]

/-- Invariant rule for counted loops. -/
theorem forN_inv {n : Nat} {s : σ} {f : Nat → σ → Res σ} (P : Nat → σ → Prop) (h0 : P 0 s)
    (hs : ∀ i s, i < n → P i s → ∃ s', f i s = .ok s' ∧ P (i + 1) s') :
    ∃ s', forN n s f = .ok s' ∧ P n s' := by
  induction n with
  | zero => exact ⟨s, rfl, h0⟩
  | succ n ih =>
    obtain ⟨s', h1, h2⟩ := ih (fun i s hi => hs i s (by omega))
    obtain ⟨s'', h3, h4⟩ := hs n s' (by omega) h2
    exact ⟨s'', by rw [forN_succ, h1]; exact h3, h4⟩

theorem forN_congr {n : Nat} {s : σ} {f g : Nat → σ → Res σ} (h : ∀ i < n, ∀ s, f i s = g i s) :
    forN n s f = forN n s g := by
  induction n with
  | zero => rfl
  | succ n ih =>
    rw [forN_succ, forN_succ, ih (fun i hi => h i (by omega))]
    congr 1; funext s'; exact h n (by omega) s'

/-- A loop whose body never fails is a fold. -/
theorem forN_ok {n : Nat} {s : σ} {f : Nat → σ → Res σ} (g : Nat → σ → σ)
    (h : ∀ i < n, ∀ s, f i s = .ok (g i s)) :
    forN n s f = .ok ((List.range n).foldl (fun s i => g i s) s) := by
  induction n with
  | zero => rfl
  | succ n ih =>
    rw [forN_succ, ih (fun i hi => h i (by omega)), List.range_succ]
    simp [h n (by omega)]

@[simp] theorem forI_nat (n : Nat) (s : σ) (f : Int → σ → Res σ) :
    forI (n : Int) s f = forN n s (fun i s => f (i : Int) s) := by
  simp [forI]

end
end SmartDNN
