import Verif.Model.Scalar

/-!
# Random engine (smart_dnn/RandomEngine.hpp) and random tensors
-/

namespace SmartDNN

/-- The random engine as an abstract state machine: `ρ` is the state of the `std::mt19937`, `seed` is
`engine.seed(s)`, and `he n` is one draw from a fresh `std::normal_distribution(0, sqrt(2/n))`
(RandomEngine.hpp:37-40).  Nothing is assumed about the numbers drawn. -/
structure Engine (ρ T : Type) where
  seed : Nat → ρ
  he : Nat → ρ → T × ρ

section
variable {ρ T : Type} [LT T] [DecidableLT T]

/-- `RandomEngine::getHeRandRange(n, min, max)` (RandomEngine.hpp:37-42). -/
def getHeRandRange (E : Engine ρ T) (n : Nat) (lo hi : T) (r : ρ) : T × ρ :=
  let (v, r') := E.he n r
  (cmin (cmax v lo) hi, r')

/-- `createRandom(shape, min, max)` (Tensor/TensorOperations.hpp:302-311), iterations in increasing
order (the shipped build does not enable OpenMP). -/
def createRandom [Zero T] (E : Engine ρ T) (s : Shape) (lo hi : T) (r : ρ) : Res (Tensor T × ρ) :=
  forN s.size (Tensor.zeros s, r) (fun i st => do
    let (v, r') := getHeRandRange E s.size lo hi st.2
    let t ← st.1.set i v
    return (t, r'))

/-- `Tensor::rand(shape)` (Tensor/Tensor.impl.hpp:235-238, Tensor/TensorFactory.hpp:36-39). -/
def Tensor.rand [Zero T] [One T] (E : Engine ρ T) (s : Shape) (r : ρ) : Res (Tensor T × ρ) :=
  createRandom E s 0 1 r

/-- `Tensor::randn(shape, min, max)` (Tensor/Tensor.impl.hpp:240-243, Tensor/TensorFactory.hpp:47-50). -/
def Tensor.randn [Zero T] (E : Engine ρ T) (s : Shape) (lo hi : T) (r : ρ) : Res (Tensor T × ρ) :=
  createRandom E s lo hi r

/-- `Tensor::rand(int)` (Tensor/Tensor.impl.hpp:255-258, Tensor/TensorFactory.hpp:41-44). -/
def Tensor.randSize [Zero T] [One T] (E : Engine ρ T) (n : Int) (r : ρ) : Res (Tensor T × ρ) := do
  let s ← Shape.make [n]
  Tensor.rand E s r

/-- `Tensor::randn(int, min, max)` (Tensor/Tensor.impl.hpp:260-263, Tensor/TensorFactory.hpp:52-55). -/
def Tensor.randnSize [Zero T] (E : Engine ρ T) (n : Int) (lo hi : T) (r : ρ) : Res (Tensor T × ρ) := do
  let s ← Shape.make [n]
  Tensor.randn E s lo hi r

/-- One use of the random engine: `RandomEngine::setSeed(s)` (RandomEngine.hpp:13-15) or a request for a
random tensor. -/
inductive RandCmd (T : Type) where
  | setSeed (s : Nat)
  | tensor (shape : Shape) (lo hi : T)

/-- A program that uses the engine: the tensors it generated, in order, and the final engine state. -/
def randRun [Zero T] (E : Engine ρ T) : List (RandCmd T) → ρ → Res (List (Tensor T) × ρ)
  | [], r => .ok ([], r)
  | .setSeed s :: cs, _ => randRun E cs (E.seed s)
  | .tensor sh lo hi :: cs, r => do
    let (t, r1) ← createRandom E sh lo hi r
    let (ts, r2) ← randRun E cs r1
    return (t :: ts, r2)

end
end SmartDNN
