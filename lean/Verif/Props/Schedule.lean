import Verif.Props.Train

/-!
# C55: only the sequence of samples counts
-/

namespace SmartDNN
open Net Spec

variable {ρ T : Type} [Zero T] [One T] [Add T] [Sub T] [Mul T] [Div T] [Neg T] [NatCast T] [IntCast T]
  [LT T] [DecidableLT T] [LE T] [DecidableLE T] [DecidableEq T] [MathFn T]

/-- One call of `train` after the other, each with its samples and targets and its number of epochs, lead from the model `net` to the model `net'`, and none throws. -/
def Spec.Lessons (E : Engine ρ T) : List (List (Tensor T × Tensor T) × Nat) → Net ρ T → Net ρ T → Prop
  | [], net, net' => net = net'
  | c :: cs, net, net' => ∃ k rs, trainCall E (c.1.map (·.1)) (c.1.map (·.2)) c.2 net = (.ok (), k, rs) ∧ Lessons E cs k net'

/-- The samples in the order in which such calls go through them: epoch after epoch, call after call. -/
def Spec.curriculum (cs : List (List (Tensor T × Tensor T) × Nat)) : List (Tensor T × Tensor T) := cs.flatMap fun c => (List.replicate c.2 c.1).flatten

theorem steps_join (E : Engine ρ T) {ps qs : List (Tensor T × Tensor T)} {net k net' : Net ρ T} {vs ws : List T} (h : Steps E ps net k vs) (h' : Steps E qs k net' ws) :
    Steps E (ps ++ qs) net net' (vs ++ ws) := by
  induction h with
  | nil => exact h'
  | cons a _ ih => exact .cons a (ih h')

theorem steps_cut (E : Engine ρ T) (ps : List (Tensor T × Tensor T)) : ∀ {qs : List (Tensor T × Tensor T)} {net net' : Net ρ T} {vs : List T}, Steps E (ps ++ qs) net net' vs →
    ∃ k us ws, Steps E ps net k us ∧ Steps E qs k net' ws := by
  induction ps with
  | nil => exact fun {_ net _ _} h => ⟨net, _, _, .nil _, h⟩
  | cons p ps ih =>
    intro qs net net' vs h
    cases h with
    | cons a h =>
      obtain ⟨k, us, ws, h1, h2⟩ := ih h
      exact ⟨k, _, ws, .cons a h1, h2⟩

theorem epochs_steps (E : Engine ρ T) (ps : List (Tensor T × Tensor T)) : ∀ (n : Nat) (net net' : Net ρ T),
    (∃ rs, Epochs E ps n net net' rs) ↔ ∃ vs, Steps E (List.replicate n ps).flatten net net' vs := by
  intro n
  induction n with
  | zero =>
    intro net net'
    constructor
    · rintro ⟨_, ⟨⟩⟩
      exact ⟨_, .nil _⟩
    · rintro ⟨_, ⟨⟩⟩
      exact ⟨_, .zero _⟩
  | succ n ih =>
    intro net net'
    rw [List.replicate_succ, List.flatten_cons]
    constructor
    · rintro ⟨_, h⟩
      cases h with
      | succ h hs =>
        obtain ⟨vs, h'⟩ := (ih _ _).1 ⟨_, hs⟩
        exact ⟨_, steps_join E h h'⟩
    · rintro ⟨_, h⟩
      obtain ⟨k, us, ws, h1, h2⟩ := steps_cut E ps h
      obtain ⟨rs, h3⟩ := (ih _ _).2 ⟨_, h2⟩
      exact ⟨_, .succ h1 h3⟩

theorem lessons_steps (E : Engine ρ T) (cs : List (List (Tensor T × Tensor T) × Nat)) : (∀ c ∈ cs, (c.1.length : T) ≠ 0) → ∀ net net' : Net ρ T,
    Lessons E cs net net' ↔ ∃ vs, Steps E (curriculum cs) net net' vs := by
  induction cs with
  | nil =>
    intro _ net net'
    constructor
    · rintro rfl
      exact ⟨_, .nil _⟩
    · rintro ⟨_, ⟨⟩⟩
      rfl
  | cons c cs ih =>
    intro hc net net'
    have ht : ∀ k rs, trainCall E (c.1.map (·.1)) (c.1.map (·.2)) c.2 net = (.ok (), k, rs) ↔ Epochs E c.1 c.2 net k rs := fun k rs => by
      have h := C55_train E (c.1.map (·.1)) (c.1.map (·.2)) c.2 net k rs (by simp) (by simpa using hc c (by simp))
      rwa [show (c.1.map (·.1)).zip (c.1.map (·.2)) = c.1 by rw [List.zip_map']; simp, Int.toNat_natCast] at h
    change (∃ k rs, _ ∧ _) ↔ ∃ vs, Steps E ((List.replicate c.2 c.1).flatten ++ curriculum cs) net net' vs
    simp only [ht, ih (fun d hd => hc d (by simp [hd]))]
    constructor
    · rintro ⟨k, rs, h1, vs, h2⟩
      obtain ⟨us, h3⟩ := (epochs_steps E c.1 c.2 net k).1 ⟨rs, h1⟩
      exact ⟨_, steps_join E h3 h2⟩
    · rintro ⟨vs, h⟩
      obtain ⟨k, us, ws, h1, h2⟩ := steps_cut E _ h
      obtain ⟨rs, h3⟩ := (epochs_steps E c.1 c.2 net k).2 ⟨_, h1⟩
      exact ⟨k, rs, h3, ws, h2⟩

/-- **C55, schedules.**  How the samples are distributed over calls of `train` and epochs makes no difference: calls that go through the same samples in the same order end with the same
model, whatever the numbers are and in whatever arithmetic. -/
theorem C55_schedule (E : Engine ρ T) (cs cs' : List (List (Tensor T × Tensor T) × Nat)) (hc : ∀ c ∈ cs, (c.1.length : T) ≠ 0) (hc' : ∀ c ∈ cs', (c.1.length : T) ≠ 0)
    (h : curriculum cs = curriculum cs') (net net' : Net ρ T) : Lessons E cs net net' ↔ Lessons E cs' net net' := by
  rw [lessons_steps E cs hc, lessons_steps E cs' hc', h]

/-- In particular: `n` epochs on data that contain the samples `k` times over are `k * n` epochs on the samples; and one epoch is one call for each sample. -/
theorem C55_repeated (E : Engine ρ T) (ps : List (Tensor T × Tensor T)) (k n : Nat) (hk : (((List.replicate k ps).flatten.length : Nat) : T) ≠ 0) (hp : (ps.length : T) ≠ 0)
    (net net' : Net ρ T) : Lessons E [((List.replicate k ps).flatten, n)] net net' ↔ Lessons E [(ps, k * n)] net net' := by
  refine C55_schedule E _ _ (by simpa using hk) (by simpa using hp) ?_ net net'
  unfold curriculum
  simp only [List.flatMap_cons, List.flatMap_nil, List.append_nil]
  induction n with
  | zero => simp
  | succ n ih => rw [List.replicate_succ, List.flatten_cons, ih, Nat.mul_succ, Nat.add_comm, List.replicate_add, List.flatten_append]

theorem C55_one_by_one (E : Engine ρ T) (ps : List (Tensor T × Tensor T)) (hp : (ps.length : T) ≠ 0) (h1 : ((1 : Nat) : T) ≠ 0) (net net' : Net ρ T) :
    Lessons E [(ps, 1)] net net' ↔ Lessons E (ps.map fun p => ([p], 1)) net net' := by
  refine C55_schedule E _ _ (by simpa using hp) (fun c hc => by
    obtain ⟨p, -, rfl⟩ := List.mem_map.1 hc
    exact h1) ?_ net net'
  unfold curriculum
  simp [List.flatMap_map]

/-- Two calls over three samples, arranged differently. -/
example (E : Engine ρ ℚ) [MathFn ℚ] (p q r : Tensor ℚ × Tensor ℚ) (net net' : Net ρ ℚ) :
    Lessons E [([p, q], 2), ([r], 1)] net net' ↔ Lessons E [([p], 1), ([q, p], 1), ([q, r], 1)] net net' :=
  C55_schedule E [([p, q], 2), ([r], 1)] [([p], 1), ([q, p], 1), ([q, r], 1)] (fun c hc => by fin_cases hc <;> simp) (fun c hc => by fin_cases hc <;> simp) rfl net net'

end SmartDNN
