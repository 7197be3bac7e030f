import Verif.Spec.Calculus
import Verif.Proofs.Mean
import Mathlib.Analysis.Calculus.Deriv.Add
import Mathlib.Analysis.Calculus.Deriv.Mul
import Mathlib.Analysis.Calculus.Deriv.Comp

/-! Lemmas about gradients and vector-Jacobian products. -/

namespace SmartDNN
open Spec

theorem hasDerivAt_list_sum {α : Type _} (L : List α) (f : α → ℝ → ℝ) (f' : α → ℝ) (x : ℝ)
    (h : ∀ a ∈ L, HasDerivAt (f a) (f' a) x) :
    HasDerivAt (fun t => (L.map (fun a => f a t)).sum) (L.map f').sum x := by
  induction L with
  | nil => simpa using hasDerivAt_const x (0 : ℝ)
  | cons a L ih =>
    simp only [List.map_cons, List.sum_cons]
    exact (h a (by simp)).add (ih (fun b hb => h b (by simp [hb])))

theorem hasDerivAt_total {ds : List Nat} (f : List Nat → ℝ → ℝ) (f' : List Nat → ℝ) (x : ℝ)
    (h : ∀ i, ValidIdx ds i → HasDerivAt (f i) (f' i) x) :
    HasDerivAt (fun t => total ds (fun i => f i t)) (total ds f') x :=
  hasDerivAt_list_sum _ _ _ _ (fun i hi => h i (mem_indices.1 hi))

theorem total_congr {ds : List Nat} {f g : List Nat → ℝ} (h : ∀ i, ValidIdx ds i → f i = g i) :
    total ds f = total ds g := by
  unfold total
  congr 1
  exact List.map_congr_left (fun i hi => h i (mem_indices.1 hi))

theorem list_sum_single {α : Type _} [DecidableEq α] {L : List α} (hL : L.Nodup) {a : α} (ha : a ∈ L) (f : α → ℝ) :
    (L.map (fun i => if i = a then f i else 0)).sum = f a := by
  induction L with
  | nil => simp at ha
  | cons b L ih =>
    rw [List.nodup_cons] at hL
    simp only [List.map_cons, List.sum_cons]
    by_cases hb : b = a
    · subst hb
      have : (L.map (fun i => if i = b then f i else 0)).sum = 0 := by
        apply List.sum_eq_zero
        intro x hx
        obtain ⟨i, hi, rfl⟩ := List.mem_map.1 hx
        rw [if_neg]
        rintro rfl
        exact hL.1 hi
      simp [this]
    · simp only [hb, if_false, zero_add]
      exact ih hL.2 ((List.mem_cons.1 ha).resolve_left (fun h => hb h.symm))

theorem total_single {ds : List Nat} {a : List Nat} (ha : ValidIdx ds a) (f : List Nat → ℝ) :
    total ds (fun i => if i = a then f i else 0) = f a :=
  list_sum_single (nodup_indices ds) (mem_indices.2 ha) f

theorem total_add (ds : List Nat) (f g : List Nat → ℝ) :
    total ds (fun i => f i + g i) = total ds f + total ds g := by
  unfold total; rw [List.sum_map_add]

theorem total_mul_left (ds : List Nat) (c : ℝ) (f : List Nat → ℝ) :
    total ds (fun i => c * f i) = c * total ds f := by
  unfold total; rw [List.sum_map_mul_left]

theorem total_mul_right (ds : List Nat) (c : ℝ) (f : List Nat → ℝ) :
    total ds (fun i => f i * c) = total ds f * c := by
  unfold total; rw [List.sum_map_mul_right]

theorem total_neg (ds : List Nat) (f : List Nat → ℝ) :
    total ds (fun i => - f i) = - total ds f := by
  have := total_mul_left ds (-1) f
  simpa using this

theorem total_sub (ds : List Nat) (f g : List Nat → ℝ) :
    total ds (fun i => f i - g i) = total ds f - total ds g := by
  simp only [sub_eq_add_neg]
  rw [total_add, total_neg]

theorem total_zero (ds : List Nat) : total ds (fun _ => 0) = 0 := by
  have := total_mul_left ds 0 (fun _ => 0)
  simpa using this

theorem total_comm (ds es : List Nat) (f : List Nat → List Nat → ℝ) :
    total ds (fun i => total es (fun j => f i j)) = total es (fun j => total ds (fun i => f i j)) :=
  sum_comm' _ _ _

theorem total_cons (d : Nat) (ds : List Nat) (f : List Nat → ℝ) :
    total (d :: ds) f = ((List.range d).map (fun b => total ds (fun x => f (b :: x)))).sum := by
  unfold total
  simp only [indices]
  induction List.range d with
  | nil => simp
  | cons b l ih =>
    simp only [List.flatMap_cons, List.map_append, List.sum_append, List.map_cons, List.sum_cons, ih,
      List.map_map, Function.comp_def]

/-- The coordinate curve. -/
theorem curveAt_setEntry (ds : List Nat) (f : List Nat → ℝ) (idx : List Nat) :
    CurveAt ds (fun t => setEntry f idx (f idx + t)) f (fun j => if j = idx then 1 else 0) := by
  constructor
  · intro i _
    simp only [setEntry]
    split
    · simp_all
    · rfl
  · intro i _
    unfold setEntry
    by_cases h : i = idx
    · simp only [h, if_true]
      simpa using (hasDerivAt_id (0 : ℝ)).const_add (f idx)
    · simp only [h, if_false]
      exact hasDerivAt_const _ _

/-- A gradient consists of the partial derivatives. -/
theorem Spec.HasGradient.partial {ds : List Nat} {L : (List Nat → ℝ) → ℝ} {f r : List Nat → ℝ}
    (h : HasGradient ds L f r) {idx : List Nat} (hv : ValidIdx ds idx) :
    HasDerivAt (fun x => L (setEntry f idx x)) (r idx) (f idx) := by
  have h1 := h _ _ (curveAt_setEntry ds f idx)
  have h2 : total ds (fun i => r i * (if i = idx then 1 else 0)) = r idx := by
    have := total_single hv r
    rw [← this]
    apply total_congr
    intro i _
    split <;> simp
  rw [h2] at h1
  have h3 : HasDerivAt (fun x : ℝ => x - f idx) 1 (f idx) := (hasDerivAt_id (f idx)).sub_const _
  have h4 : HasDerivAt (fun t => L (setEntry f idx (f idx + t))) (r idx) (f idx - f idx) := by
    simpa using h1
  have := HasDerivAt.comp (h := fun x => x - f idx) (f idx) h4 h3
  simpa [Function.comp_def] using this

theorem Spec.HasGradient.unique {ds : List Nat} {L : (List Nat → ℝ) → ℝ} {f r r' : List Nat → ℝ}
    (h : HasGradient ds L f r) (h' : HasGradient ds L f r') {idx : List Nat} (hv : ValidIdx ds idx) :
    r idx = r' idx := (h.partial hv).unique (h'.partial hv)

/-- `F` maps curves to curves. -/
theorem Spec.HasVJP.curve {ds es : List Nat} {F : (List Nat → ℝ) → List Nat → ℝ} {f : List Nat → ℝ}
    {A : (List Nat → ℝ) → List Nat → ℝ} (h : HasVJP ds es F f A)
    (hF : ∀ x, (∀ i, ValidIdx ds i → x i = f i) → ∀ j, ValidIdx es j → F x j = F f j)
    {c : ℝ → List Nat → ℝ} {v : List Nat → ℝ} (hc : CurveAt ds c f v) :
    CurveAt es (fun t => F (c t)) (F f)
      (fun j => total ds (fun i => A (fun k => if k = j then 1 else 0) i * v i)) := by
  constructor
  · intro j hj
    exact hF _ hc.1 j hj
  · intro j hj
    have := h (fun k => if k = j then 1 else 0) c v hc
    refine this.congr_of_eventuallyEq (Filter.Eventually.of_forall (fun t => ?_))
    have h1 := total_single hj (F (c t))
    show F (c t) j = total es _
    rw [← h1]
    apply total_congr
    intro k _
    split <;> simp_all

/-- `F x j` only depends on the entries of `x`. -/
def Extensional (ds es : List Nat) (F : (List Nat → ℝ) → List Nat → ℝ) : Prop :=
  ∀ x y, (∀ i, ValidIdx ds i → x i = y i) → ∀ j, ValidIdx es j → F x j = F y j

/-- Chain rule for gradients. -/
theorem Spec.HasGradient.comp {ds es : List Nat} {F : (List Nat → ℝ) → List Nat → ℝ} {L : (List Nat → ℝ) → ℝ}
    {f r : List Nat → ℝ} {A : (List Nat → ℝ) → List Nat → ℝ}
    (hL : HasGradient es L (F f) r) (hF : HasVJP ds es F f A) (hx : Extensional ds es F) :
    HasGradient ds (fun x => L (F x)) f (A r) := by
  intro c v hc
  have h1 := hF.curve (fun x hxx j hj => hx x f hxx j hj) hc
  have h2 := hL _ _ h1
  have h3 := hF r c v hc
  have h4 : HasDerivAt (fun t => total es (fun j => r j * F (c t) j))
      (total es (fun j => r j * total ds (fun i => A (fun k => if k = j then 1 else 0) i * v i))) 0 :=
    hasDerivAt_total _ _ _ (fun j hj => (h1.2 j hj).const_mul (r j))
  rw [h3.unique h4]
  exact h2

/-- Chain rule for vector-Jacobian products. -/
theorem Spec.HasVJP.comp {ds es hs : List Nat} {F G : (List Nat → ℝ) → List Nat → ℝ} {f : List Nat → ℝ}
    {A B : (List Nat → ℝ) → List Nat → ℝ} (hG : HasVJP es hs G (F f) B) (hF : HasVJP ds es F f A)
    (hx : Extensional ds es F) : HasVJP ds hs (fun x => G (F x)) f (fun g => A (B g)) :=
  fun g => (hG g).comp hF hx

theorem Spec.HasGradient.congr {ds : List Nat} {L L' : (List Nat → ℝ) → ℝ} {f r r' : List Nat → ℝ}
    (h : HasGradient ds L f r) (hL : ∀ x, L' x = L x) (hr : ∀ i, ValidIdx ds i → r' i = r i) :
    HasGradient ds L' f r' := by
  intro c v hc
  have := h c v hc
  rw [show (fun t => L' (c t)) = fun t => L (c t) from funext (fun t => hL _),
    total_congr (fun i hi => by rw [hr i hi] : ∀ i, ValidIdx ds i → r' i * v i = r i * v i)]
  exact this

/-- An element-wise function. -/
theorem hasVJP_map {ds : List Nat} {φ D : ℝ → ℝ} {f : List Nat → ℝ}
    (h : ∀ i, ValidIdx ds i → HasDerivAt φ (D (f i)) (f i)) :
    HasVJP ds ds (fun x i => φ (x i)) f (fun g i => g i * D (f i)) := by
  intro g c v hc
  have : total ds (fun i => g i * D (f i) * v i) = total ds (fun i => g i * (D (f i) * v i)) :=
    total_congr (fun i _ => by ring)
  rw [this]
  apply hasDerivAt_total (f := fun i t => g i * φ (c t i))
  intro i hi
  apply HasDerivAt.const_mul
  have h1 := h i hi
  rw [← hc.1 i hi] at h1
  rw [← hc.1 i hi]
  exact HasDerivAt.comp (0 : ℝ) h1 (hc.2 i hi)

theorem extensional_map (ds : List Nat) (φ : ℝ → ℝ) : Extensional ds ds (fun x i => φ (x i)) :=
  fun _ _ h j hj => by simp only [h j hj]

theorem hasVJP_id (ds : List Nat) (f : List Nat → ℝ) : HasVJP ds ds (fun x => x) f (fun g => g) := by
  have h := hasVJP_map (ds := ds) (φ := fun x => x) (D := fun _ => 1) (f := f) (fun i _ => hasDerivAt_id' (f i))
  simpa using h

/-- The gradient of a linear function. -/
theorem hasGradient_linear (ds : List Nat) (f g : List Nat → ℝ) :
    HasGradient ds (fun x => total ds (fun j => g j * x j)) f g := hasVJP_id ds f g

end SmartDNN
