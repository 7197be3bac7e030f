import Verif.Model.Random
import Verif.Proofs.Optimizers

/-!
# Lemmas about random tensors
-/

namespace SmartDNN
open Spec

/-- State of the engine after `k` draws with parameter `n`. -/
def engineAfter {ρ T : Type} (E : Engine ρ T) (n : Nat) : Nat → ρ → ρ
  | 0, r => r
  | k + 1, r => (E.he n (engineAfter E n k r)).2

/-- The `k`-th raw draw with parameter `n` starting from state `r`. -/
def drawAt {ρ T : Type} (E : Engine ρ T) (n k : Nat) (r : ρ) : T := (E.he n (engineAfter E n k r)).1

section
variable {ρ T : Type} [LT T] [DecidableLT T] [Zero T]

theorem createRandom_ofFn (E : Engine ρ T) (ds : List Nat) (lo hi : T) (r : ρ) :
    createRandom E (shapeOf ds) lo hi r =
      .ok (ofFn ds (fun idx => cmin (cmax (drawAt E ds.prod (ravel ds idx) r) lo) hi),
           engineAfter E ds.prod ds.prod r) := by
  unfold createRandom
  rw [shapeOf_size, zeros_shapeOf]
  have key : ∀ k, k ≤ ds.prod → forN k ((ofFn ds (fun _ => (0 : T)), r) : Tensor T × ρ) (fun i st => do
      let (v, r') := getHeRandRange E ds.prod lo hi st.2
      let t ← st.1.set i v
      return (t, r')) =
      .ok (ofFn ds (fun idx => if ravel ds idx < k then cmin (cmax (drawAt E ds.prod (ravel ds idx) r) lo) hi else 0),
        engineAfter E ds.prod k r) := by
    intro k
    induction k with
    | zero => intro _; simp [forN_zero, engineAfter]
    | succ k ih =>
      intro hk
      obtain ⟨idx, hv, hr, _⟩ := exists_idx_of_lt (ds := ds) (k := k) (by omega)
      rw [forN_succ, ih (by omega)]
      simp only [Except.bind_ok', getHeRandRange]
      have := setFlat_ofFn (T := T) (fun idx => if ravel ds idx < k then
        cmin (cmax (drawAt E ds.prod (ravel ds idx) r) lo) hi else 0) hv
        (cmin (cmax (E.he ds.prod (engineAfter E ds.prod k r)).1 lo) hi)
      rw [hr] at this
      rw [this]
      simp only [Except.bind_ok', Except.pure_eq']
      congr 1
      refine Prod.ext (ofFn_congr fun i hi' => ?_) rfl
      unfold upd
      split
      · next h =>
        subst h
        rw [hr, if_pos (by omega)]
        rfl
      · next h =>
        have : ravel ds i ≠ k := fun h2 => h (ravel_inj hi' hv (h2.trans hr.symm))
        beta_reduce
        by_cases h3 : ravel ds i < k
        · rw [if_pos h3, if_pos (by omega)]
        · rw [if_neg h3, if_neg (by omega)]
  rw [key _ le_rfl]
  congr 1
  refine Prod.ext (ofFn_congr fun i hi' => ?_) rfl
  rw [if_pos (ravel_lt hi')]

end
end SmartDNN
