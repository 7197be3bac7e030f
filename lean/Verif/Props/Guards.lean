import Verif.Proofs.Flatten

/-!
# `backward` before `forward` (C51)
-/

namespace SmartDNN
open Spec

section
variable {T : Type}

/-- No `forward` has been called: nothing is remembered. -/
def Layer.Fresh (l : Layer T) : Prop :=
  match l.kind with
  | .fc l => l.input = none
  | .conv l => l.input = none
  | .flatten l => l.originalShape = none
  | .maxPool l => l.input = none
  | .batchNorm l => l.batchMean = none ∧ l.batchVariance = none ∧ l.normalizedInput = none
  | .dropout l => l.mask = none
  | .activation l => l.input = none

/-- The layer classes whose `backward` tests for a missing `forward`. -/
def Layer.Guarded (l : Layer T) : Prop :=
  match l.kind with
  | .fc _ | .conv _ | .maxPool _ | .batchNorm _ => True
  | _ => False

variable [Zero T] [One T] [Add T] [Sub T] [Mul T] [Div T] [Neg T] [NatCast T] [IntCast T]
  [LT T] [DecidableLT T] [LE T] [DecidableLE T] [DecidableEq T] [MathFn T]

/-- Fully connected, convolution, max-pooling and batch-norm layers: `backward` on a fresh layer throws
`std::runtime_error` and changes nothing.  Missing for the full property: the other layers, see
`C51_refuted`. -/
theorem C51_guarded_partial (l : Layer T) (hf : l.Fresh) (hg : l.Guarded) (g : Tensor T) :
    Layer.backward g l = (.error .runtimeError, l) := by
  obtain ⟨k, m⟩ := l
  cases k with
  | fc l =>
    simp only [Layer.Fresh] at hf
    simp only [Layer.backward, Layer.onKind, FC.backward, Mut.get_bind, hf, Mut.lift_apply]
  | conv l =>
    simp only [Layer.Fresh] at hf
    simp only [Layer.backward, Layer.onKind, Conv.backward, Mut.get_bind, hf, Mut.lift_apply]
  | maxPool l =>
    simp only [Layer.Fresh] at hf
    simp only [Layer.backward, Layer.onKind, MaxPool.backward, Mut.get_bind, hf, Mut.lift_apply]
  | batchNorm l =>
    simp only [Layer.Fresh] at hf
    simp only [Layer.backward, Layer.onKind, BatchNorm.backward, BatchNorm.backwardWith, Mut.get_bind, hf.1, Mut.lift_apply]
  | flatten l => exact hg.elim
  | dropout l => exact hg.elim
  | activation l => exact hg.elim

/-- Flatten, dropout and activation layers: `backward` on a fresh layer is undefined behaviour, for every
gradient. -/
theorem C51_refuted (l : Layer T) (hf : l.Fresh) (hg : ¬ l.Guarded) (g : Tensor T) :
    (Layer.backward g l).1 = .error .ub := by
  obtain ⟨k, m⟩ := l
  cases k with
  | flatten l =>
    simp only [Layer.Fresh] at hf
    simp only [Layer.backward, Layer.onKind, Flatten.backward, Mut.get_bind, hf, derefOpt, Mut.lift_error_bind]
  | dropout l =>
    simp only [Layer.Fresh] at hf
    simp only [Layer.backward, Layer.onKind, Dropout.backward, Mut.get_bind, hf, derefOpt, Mut.lift_error_bind]
  | activation l =>
    simp only [Layer.Fresh] at hf
    simp only [Layer.backward, Layer.onKind, ActLayer.backward, Mut.get_bind, hf, derefOpt, Mut.lift_error_bind]
  | fc l => exact (hg trivial).elim
  | conv l => exact (hg trivial).elim
  | maxPool l => exact (hg trivial).elim
  | batchNorm l => exact (hg trivial).elim

omit [Add T] [Sub T] [Mul T] [Div T] [Neg T] [NatCast T] [IntCast T] [LE T] [DecidableLE T] [DecidableEq T] [MathFn T] in
/-- Every constructor makes a fresh layer. -/
theorem C51_constructed {ρ : Type} (E : Engine ρ T) (r : ρ) :
    (∀ i o l r', FC.new E i o r = .ok (l, r') → Layer.Fresh ⟨.fc l, true⟩) ∧
    (∀ a b c d e f g l r', Conv.new E a b c d e f g r = .ok (l, r') → Layer.Fresh ⟨.conv l, true⟩) ∧
    (∀ n e m p (l : BatchNorm T), BatchNorm.new n e m p = .ok l → Layer.Fresh ⟨.batchNorm l, true⟩) ∧
    (∀ (ninf : T) p s q, Layer.Fresh ⟨.maxPool (MaxPool.new ninf p s q), true⟩) ∧
    Layer.Fresh (T := T) ⟨.flatten {}, true⟩ ∧
    (∀ rate : T, Layer.Fresh ⟨.dropout { dropoutRate := rate }, true⟩) ∧
    (∀ a : Act T, Layer.Fresh ⟨.activation { activation := a }, true⟩) := by
  refine ⟨?_, ?_, ?_, fun _ _ _ _ => rfl, rfl, fun _ => rfl, fun _ => rfl⟩
  · intro i o l r' h
    simp only [FC.new] at h
    rcases hs : Shape.make [i, o] with e | s
    · simp [hs] at h
    · rcases hr : Tensor.rand E s r with e | ⟨t, r1⟩
      · simp [hs, hr] at h
      · rcases hb : Shape.make [1, o] with e | sb
        · simp [hs, hr, hb] at h
        · simp only [hs, hr, hb, Except.bind_ok', Except.pure_eq', Except.ok.injEq, Prod.mk.injEq] at h
          rw [← h.1]
          rfl
  · intro a b c d e f g l r' h
    simp only [Conv.new] at h
    rcases hs : Shape.make [b, a, c, d] with e | s
    · simp [hs] at h
    · rcases hr : Tensor.rand E s r with e | ⟨t, r1⟩
      · simp [hs, hr] at h
      · rcases hb : Shape.make [b, 1] with e | sb
        · simp [hs, hr, hb] at h
        · simp only [hs, hr, hb, Except.bind_ok', Except.pure_eq', Except.ok.injEq, Prod.mk.injEq] at h
          rw [← h.1]
          rfl
  · intro n e m p l h
    simp only [BatchNorm.new] at h
    rcases hs : Shape.make [1, n] with e | s
    · simp [hs] at h
    · simp only [hs, Except.bind_ok', Except.pure_eq', Except.ok.injEq] at h
      rw [← h]
      exact ⟨rfl, rfl, rfl⟩

end
end SmartDNN
