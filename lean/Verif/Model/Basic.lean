/-!
# Outcomes, raw memory and loops

The C++ code is modelled as total functions into `Res`.
-/

namespace SmartDNN

/-- Ways in which a C++ call can fail to return a value.
`ub` is undefined behaviour (out-of-range raw access, dereference of an empty optional, integer
division by zero); `abort` is a failed `assert`; `diverge` is a loop that does not terminate. -/
inductive Err where
  | invalidArgument
  | runtimeError
  | outOfRange
  | overflowError
  | lengthError
  | abort
  | ub
  | diverge
  deriving DecidableEq, Repr

/-- Result of a C++ call. -/
abbrev Res (α : Type _) := Except Err α

/-- C++ exceptions (as opposed to aborting, undefined behaviour and divergence). -/
def Err.isException : Err → Bool
  | .invalidArgument | .runtimeError | .outOfRange | .overflowError | .lengthError => true
  | .abort | .ub | .diverge => false

/-- Raw read `data[i]` through a pointer or `std::vector::operator[]`: no bounds check in the code,
so an access outside the buffer is undefined behaviour.
Models `TensorData::operator[]` (Tensor/TensorDataCPU.impl.hpp:78-84) and pointer indexing. -/
def rd {T : Type _} (d : List T) (i : Int) : Res T :=
  if 0 ≤ i then
    match d[i.toNat]? with
    | some x => .ok x
    | none => .error .ub
  else .error .ub

/-- Raw write `data[i] = x`; undefined behaviour outside the buffer.
Models `TensorData::operator[]` (Tensor/TensorDataCPU.impl.hpp:78-84) and pointer indexing. -/
def wr {T : Type _} (d : List T) (i : Int) (x : T) : Res (List T) :=
  if 0 ≤ i ∧ i.toNat < d.length then .ok (d.set i.toNat x) else .error .ub

/-- Counted loop `for (i = 0; i < n; ++i) s = f(i, s)`, aborted by the first failure. -/
def forN {σ : Type _} (n : Nat) (s : σ) (f : Nat → σ → Res σ) : Res σ :=
  (List.range n).foldlM (fun s i => f i s) s

/-- Counted loop with a (possibly negative) `int` bound. -/
def forI {σ : Type _} (n : Int) (s : σ) (f : Int → σ → Res σ) : Res σ :=
  forN n.toNat s (fun i s => f (i : Int) s)

/-- A member function that mutates an object of type `σ` and may throw: it returns the outcome *and*
the state the object is left in, so what an exception leaves behind is visible. -/
def Mut (σ α : Type) := σ → Res α × σ

namespace Mut
variable {σ α β : Type}

/-- Return a value. -/
def pure (a : α) : Mut σ α := fun s => (.ok a, s)
/-- Sequencing: an exception skips the rest and keeps the state reached so far. -/
def bind (m : Mut σ α) (f : α → Mut σ β) : Mut σ β := fun s =>
  match m s with
  | (.ok a, s') => f a s'
  | (.error e, s') => (.error e, s')
/-- Read the object. -/
def get : Mut σ σ := fun s => (.ok s, s)
/-- Overwrite the object. -/
def set (s : σ) : Mut σ Unit := fun _ => (.ok (), s)
/-- Assign to a part of the object. -/
def modify (f : σ → σ) : Mut σ Unit := fun s => (.ok (), f s)
/-- Run a computation that does not mutate the object but may throw. -/
def lift (r : Res α) : Mut σ α := fun s => (r, s)

instance : Monad (Mut σ) where
  pure := Mut.pure
  bind := Mut.bind

/-- The new object state, or the failure (forgetting what the failure left behind). -/
def exec (m : Mut σ Unit) (s : σ) : Res σ :=
  match m s with
  | (.ok _, s') => .ok s'
  | (.error e, _) => .error e

/-- Counted loop of a mutating body. -/
def forN (n : Nat) (body : Nat → Mut σ Unit) : Mut σ Unit :=
  (List.range n).foldr (fun i rest => Mut.bind (body i) (fun _ => rest)) (Mut.pure ())

end Mut

/-- Number of distinct `size_t` values on the modelled 64-bit platform. -/
def sizeMod : Nat := 2 ^ 64

/-- Conversion `static_cast<size_t>(int)`. -/
def toSizeT (i : Int) : Nat := (i % (sizeMod : Int)).toNat

/-- Conversion of an integer value to a 32-bit `int` (modular narrowing). -/
def toInt32 (i : Int) : Int := Int.bmod i (2 ^ 32)

end SmartDNN
