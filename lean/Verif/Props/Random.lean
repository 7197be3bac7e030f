import Verif.Proofs.Random
import Mathlib.Data.Int.Order.Basic

/-!
# Random tensors (C24)
-/

namespace SmartDNN
open Spec

section
variable {ρ T : Type} [LinearOrder T] [Zero T]

/-- `randn(shape, min, max)` with `min ≤ max`: a tensor of that shape with every element in range, for
every engine and engine state. -/
theorem C24_randn_range (E : Engine ρ T) (ds : List Nat) {lo hi : T} (h : lo ≤ hi) (r : ρ) :
    ∃ f r', Tensor.randn E (shapeOf ds) lo hi r = .ok (ofFn ds f, r') ∧ ∀ idx, lo ≤ f idx ∧ f idx ≤ hi := by
  refine ⟨_, _, createRandom_ofFn E ds lo hi r, fun idx => ?_⟩
  unfold cmin cmax
  split <;> split <;> constructor <;> first | assumption | exact le_rfl | exact le_of_not_gt ‹_› | skip

theorem C24_rand_range [One T] (h : (0 : T) ≤ 1) (E : Engine ρ T) (ds : List Nat) (r : ρ) :
    ∃ f r', Tensor.rand E (shapeOf ds) r = .ok (ofFn ds f, r') ∧ ∀ idx, 0 ≤ f idx ∧ f idx ≤ 1 :=
  C24_randn_range E ds h r

/-- The integer overloads make one-dimensional tensors with the same guarantee. -/
theorem C24_randnSize_range (E : Engine ρ T) {n : Nat} (hn : Dims [n]) {lo hi : T} (h : lo ≤ hi) (r : ρ) :
    ∃ f r', Tensor.randnSize E n lo hi r = .ok (ofFn [n] f, r') ∧ ∀ idx, lo ≤ f idx ∧ f idx ≤ hi := by
  have : Shape.make [(n : Int)] = .ok (shapeOf [n]) := make_dims hn
  unfold Tensor.randnSize
  rw [this]
  exact C24_randn_range E [n] h r

/-- See `C24_randnSize_range`. -/
theorem C24_randSize_range [One T] (h : (0 : T) ≤ 1) (E : Engine ρ T) {n : Nat} (hn : Dims [n]) (r : ρ) :
    ∃ f r', Tensor.randSize E n r = .ok (ofFn [n] f, r') ∧ ∀ idx, 0 ≤ f idx ∧ f idx ≤ 1 := by
  have : Shape.make [(n : Int)] = .ok (shapeOf [n]) := make_dims hn
  unfold Tensor.randSize
  rw [this]
  exact C24_rand_range h E [n] r

end

section
variable {ρ T : Type} [LT T] [DecidableLT T] [Zero T]

/-- Specification: draw one number per entry of the list (entry = distribution parameter and range), clamp
it into the range, left to right. -/
def Spec.drawAll (E : Engine ρ T) : List (Nat × T × T) → ρ → List T × ρ
  | [], r => ([], r)
  | (n, lo, hi) :: ps, r =>
    let rest := drawAll E ps (E.he n r).2
    (cmin (cmax (E.he n r).1 lo) hi :: rest.1, rest.2)

omit [Zero T] in
theorem drawAll_append (E : Engine ρ T) (a b : List (Nat × T × T)) (r : ρ) :
    drawAll E (a ++ b) r = ((drawAll E a r).1 ++ (drawAll E b (drawAll E a r).2).1, (drawAll E b (drawAll E a r).2).2) := by
  induction a generalizing r with
  | nil => rfl
  | cons p ps ih => obtain ⟨n, lo, hi⟩ := p; simp [drawAll, ih]

omit [LT T] [DecidableLT T] [Zero T] in
theorem engineAfter_succ' (E : Engine ρ T) (n k : Nat) (r : ρ) :
    engineAfter E n (k + 1) r = engineAfter E n k (E.he n r).2 := by
  induction k with
  | zero => rfl
  | succ k ih => rw [engineAfter, ih]; rfl

omit [Zero T] in
theorem drawAll_replicate (E : Engine ρ T) (n : Nat) (lo hi : T) (k : Nat) (r : ρ) :
    drawAll E (List.replicate k (n, lo, hi)) r =
      ((List.range k).map (fun i => cmin (cmax (drawAt E n i r) lo) hi), engineAfter E n k r) := by
  induction k generalizing r with
  | zero => rfl
  | succ k ih =>
    rw [List.replicate_succ, drawAll, ih, engineAfter_succ', List.range_succ_eq_map]
    simp only [List.map_cons, List.map_map]
    refine Prod.ext (congrArg₂ List.cons rfl (List.map_congr_left fun i _ => ?_)) rfl
    simp [drawAt, engineAfter_succ']

/-- What a program's commands ask for. -/
def RandCmd.draws : RandCmd T → List (Nat × T × T)
  | .setSeed _ => []
  | .tensor s lo hi => List.replicate s.size (s.size, lo, hi)

def RandCmd.Valid : RandCmd T → Prop
  | .setSeed _ => True
  | .tensor s _ _ => ∃ ds, s = shapeOf ds

def RandCmd.isTensor : RandCmd T → Bool
  | .setSeed _ => false
  | .tensor .. => true

/-- Every program over the engine runs to completion, and generates one tensor per request, of the
requested shape. -/
theorem C24_shapes (E : Engine ρ T) (cs : List (RandCmd T)) (h : ∀ c ∈ cs, c.Valid) (r : ρ) :
    ∃ ts r', randRun E cs r = .ok (ts, r') ∧
      ts.map (·.shape) = cs.filterMap (fun c => match c with | .setSeed _ => none | .tensor s _ _ => some s) := by
  induction cs generalizing r with
  | nil => exact ⟨[], r, rfl, rfl⟩
  | cons c cs ih =>
    cases c with
    | setSeed s =>
      obtain ⟨ts, r', h1, h2⟩ := ih (fun c hc => h c (by simp [hc])) (E.seed s)
      exact ⟨ts, r', h1, by simpa using h2⟩
    | tensor sh lo hi =>
      obtain ⟨ds, rfl⟩ := h (.tensor sh lo hi) (by simp)
      obtain ⟨ts, r', h1, h2⟩ := ih (fun c hc => h c (by simp [hc])) (engineAfter E ds.prod ds.prod r)
      refine ⟨ofFn ds (fun idx => cmin (cmax (drawAt E ds.prod (ravel ds idx) r) lo) hi) :: ts, r', ?_, ?_⟩
      · rw [randRun, createRandom_ofFn]
        simp only [Except.bind_ok', h1]
        rfl
      · simp [h2]

/-- One draw per element, in element order, across all the requests of a program: the concatenated
contents of the generated tensors are exactly the stream of draws. -/
theorem C24_one_draw_per_element (E : Engine ρ T) (cs : List (RandCmd T))
    (h : ∀ c ∈ cs, c.Valid ∧ c.isTensor) (r : ρ) :
    ∃ ts, randRun E cs r = .ok (ts, (drawAll E (cs.flatMap RandCmd.draws) r).2) ∧
      ts.flatMap (·.data) = (drawAll E (cs.flatMap RandCmd.draws) r).1 := by
  induction cs generalizing r with
  | nil => exact ⟨[], rfl, rfl⟩
  | cons c cs ih =>
    cases c with
    | setSeed s => simpa [RandCmd.isTensor] using (h _ (List.mem_cons_self)).2
    | tensor sh lo hi =>
      obtain ⟨ds, rfl⟩ := (h (.tensor sh lo hi) (by simp)).1
      obtain ⟨ts, h1, h2⟩ := ih (fun c hc => h c (by simp [hc])) (engineAfter E ds.prod ds.prod r)
      refine ⟨ofFn ds (fun idx => cmin (cmax (drawAt E ds.prod (ravel ds idx) r) lo) hi) :: ts, ?_, ?_⟩
      · rw [randRun, createRandom_ofFn]
        simp only [Except.bind_ok', h1]
        simp only [List.flatMap_cons, drawAll_append, RandCmd.draws, shapeOf_size, drawAll_replicate]
        rfl
      · simp only [List.flatMap_cons, drawAll_append, RandCmd.draws, shapeOf_size, drawAll_replicate, h2]
        congr 1
        rw [ofFn_data]
        apply List.ext_getElem (by simp [length_indices])
        intro k h1 h2
        have hk : k < (indices ds).length := by simpa using h1
        simp only [List.getElem_map, List.getElem_range]
        have : ravel ds (indices ds)[k] = k := by
          have hm := mem_indices.1 (List.getElem_mem hk)
          have := indices_ravel hm
          rw [List.getElem?_eq_some_iff] at this
          obtain ⟨h3, h4⟩ := this
          exact (List.Nodup.getElem_inj_iff (nodup_indices _)).1 h4
        rw [this]

/-- Reseeding: whatever ran before and from whatever engine state, after `setSeed(s)` the tensors a
program generates and the engine state it leaves depend only on `s` and on the program. -/
theorem C24_seed (E : Engine ρ T) (before₁ before₂ cs : List (RandCmd T)) (s : Nat) (r₁ r₂ : ρ)
    (h₁ : ∀ c ∈ before₁, c.Valid) (h₂ : ∀ c ∈ before₂, c.Valid) (h : ∀ c ∈ cs, c.Valid) :
    ∃ ts r' ts₁ ts₂,
      randRun E (before₁ ++ .setSeed s :: cs) r₁ = .ok (ts₁ ++ ts, r') ∧
      randRun E (before₂ ++ .setSeed s :: cs) r₂ = .ok (ts₂ ++ ts, r') ∧
      ts₁.length = before₁.countP (·.isTensor) ∧ ts₂.length = before₂.countP (·.isTensor) := by
  obtain ⟨ts, r', hr, _⟩ := C24_shapes E cs h (E.seed s)
  have key : ∀ (before : List (RandCmd T)) (r : ρ), (∀ c ∈ before, c.Valid) →
      ∃ ts₁, randRun E (before ++ .setSeed s :: cs) r = .ok (ts₁ ++ ts, r') ∧
        ts₁.length = before.countP (·.isTensor) := by
    intro before
    induction before with
    | nil => intro r _; exact ⟨[], by simpa [randRun] using hr, rfl⟩
    | cons c bs ih =>
      intro r hv
      cases c with
      | setSeed s' =>
        obtain ⟨t1, h1, h2⟩ := ih (E.seed s') (fun c hc => hv c (by simp [hc]))
        exact ⟨t1, by simpa [randRun] using h1, by simpa [RandCmd.isTensor] using h2⟩
      | tensor sh lo hi =>
        obtain ⟨ds, rfl⟩ := hv (.tensor sh lo hi) (by simp)
        obtain ⟨t1, h1, h2⟩ := ih (engineAfter E ds.prod ds.prod r) (fun c hc => hv c (by simp [hc]))
        refine ⟨ofFn ds (fun idx => cmin (cmax (drawAt E ds.prod (ravel ds idx) r) lo) hi) :: t1, ?_, ?_⟩
        · rw [List.cons_append, randRun, createRandom_ofFn]
          simp only [Except.bind_ok', h1]
          rfl
        · simp [RandCmd.isTensor, h2]
  obtain ⟨t1, a1, b1⟩ := key before₁ r₁ h₁
  obtain ⟨t2, a2, b2⟩ := key before₂ r₂ h₂
  exact ⟨ts, r', t1, t2, a1, a2, b1, b2⟩

end

/-- A toy engine (a counter) meets all the hypotheses: two programs, reseeded with 5. -/
example : ∃ ts r' ts₁ ts₂,
    randRun (T := Int) ⟨fun s => s, fun n r => (((n * r : Nat) : Int), r + 1)⟩
      ([.tensor (shapeOf [2, 2]) 0 3] ++ .setSeed 5 :: [.tensor (shapeOf [3]) 0 100]) (0 : Nat) = .ok (ts₁ ++ ts, r') ∧
    randRun (T := Int) ⟨fun s => s, fun n r => (((n * r : Nat) : Int), r + 1)⟩
      ([] ++ .setSeed 5 :: [.tensor (shapeOf [3]) 0 100]) (7 : Nat) = .ok (ts₂ ++ ts, r') ∧
    ts₁.length = 1 ∧ ts₂.length = 0 :=
  C24_seed _ _ _ _ 5 0 7 (by simp [RandCmd.Valid]) (by simp) (by simp [RandCmd.Valid])

/-- The range theorem applies to a non-trivial request. -/
example : ∃ f r', Tensor.randn (T := Int) (ρ := Nat) ⟨fun s => s, fun n r => (((n * r : Nat) : Int) - 3, r + 1)⟩
      (shapeOf [2, 3]) (-2) 7 4 = .ok (ofFn [2, 3] f, r') ∧ ∀ idx, -2 ≤ f idx ∧ f idx ≤ 7 :=
  C24_randn_range _ _ (by norm_num) _

end SmartDNN
