import Verif.Model.Random

/-!
# The numbers `RandomEngine` draws (smart_dnn/RandomEngine.hpp)

The random engine below `Engine`: the Mersenne Twister with what the standard distributions take from it.
-/

namespace SmartDNN

/-- `RandomEngine::getInstance()` (RandomEngine.hpp:8-11) together with what the distributions of libstdc++ take from it: `canonical` is one `std::generate_canonical`, `gauss` is one value
of the polar method.  Every function below makes a new distribution object, so no second value of the polar method is kept.  Nothing is assumed about the numbers. -/
structure RandSource (ρ T : Type) where
  seed : Nat → ρ
  canonical : ρ → T × ρ
  gauss : ρ → T × ρ

section
variable {ρ T : Type} [Zero T] [One T] [Add T] [Sub T] [Mul T] [Div T] [NatCast T] [LT T] [DecidableLT T] [MathFn T]

/-- `std::uniform_real_distribution<float> dist(lo, hi); dist(engine)`: `canonical * (hi - lo) + lo`; undefined unless `lo <= hi`. -/
def RandSource.uniform (S : RandSource ρ T) (lo hi : T) (r : ρ) : Res (T × ρ) :=
  if hi < lo then throw .ub else
    let (u, r') := S.canonical r
    return (u * (hi - lo) + lo, r')

/-- `std::normal_distribution<float> dist(mean, dev); dist(engine)`: `gauss * dev + mean`; undefined unless `dev > 0`. -/
def RandSource.normal (S : RandSource ρ T) (mean dev : T) (r : ρ) : Res (T × ρ) :=
  if 0 < dev then
    let (z, r') := S.gauss r
    return (z * dev + mean, r')
  else throw .ub

/-- `getRandRange(min, max)` (RandomEngine.hpp:17-20). -/
def getRandRange (S : RandSource ρ T) (lo hi : T) (r : ρ) : Res (T × ρ) := S.uniform lo hi r

/-- `getRand()` (RandomEngine.hpp:22-25). -/
def getRand (S : RandSource ρ T) (r : ρ) : Res (T × ρ) := S.uniform 0 1 r

/-- `getXavierInit(n_in)` (RandomEngine.hpp:27-30).  For `n_in = 0` the code's deviation is infinite; in the real numbers of the model it is 0, which is undefined as well. -/
def getXavierInit (S : RandSource ρ T) (n : T) (r : ρ) : Res (T × ρ) := S.normal 0 (MathFn.sqrt (1 / n)) r

/-- `getHeInit(n_in)` (RandomEngine.hpp:32-35).  See `getXavierInit` for `n_in = 0`. -/
def getHeInit (S : RandSource ρ T) (n : T) (r : ρ) : Res (T × ρ) := S.normal 0 (MathFn.sqrt (((2 : Nat) : T) / n)) r

/-- `getHeRandRange(n_in, min, max)` (RandomEngine.hpp:37-42) with a `float` argument `n_in`. -/
def getHeRandRangeOf (S : RandSource ρ T) (n lo hi : T) (r : ρ) : Res (T × ρ) := do
  let (v, r') ← S.normal 0 (MathFn.sqrt (((2 : Nat) : T) / n)) r
  return (cmin (cmax v lo) hi, r')

/-- The engine that `createRandom` uses, for positive `n_in` (RandomEngine.hpp:37-40; Tensor/TensorOperations.hpp:307 converts the size to `float`). -/
def RandSource.engine (S : RandSource ρ T) : Engine ρ T :=
  ⟨S.seed, fun n r => ((S.gauss r).1 * MathFn.sqrt (((2 : Nat) : T) / (n : T)) + 0, (S.gauss r).2)⟩

/-- One use of `RandomEngine` (RandomEngine.hpp:13-42). -/
inductive DrawCmd (T : Type) where
  | setSeed (s : Nat)
  | rand
  | randRange (lo hi : T)
  | xavier (n : T)
  | he (n : T)
  | heRange (n lo hi : T)

/-- One command: the number drawn, if any, and the next state of the engine. -/
def DrawCmd.run (S : RandSource ρ T) : DrawCmd T → ρ → Res (Option T × ρ)
  | .setSeed s, _ => return (none, S.seed s)
  | .rand, r => do let (v, r') ← getRand S r; return (some v, r')
  | .randRange lo hi, r => do let (v, r') ← getRandRange S lo hi r; return (some v, r')
  | .xavier n, r => do let (v, r') ← getXavierInit S n r; return (some v, r')
  | .he n, r => do let (v, r') ← getHeInit S n r; return (some v, r')
  | .heRange n lo hi, r => do let (v, r') ← getHeRandRangeOf S n lo hi r; return (some v, r')

/-- A program that draws numbers: the results of its commands in order and the last state. -/
def drawRun (S : RandSource ρ T) : List (DrawCmd T) → ρ → Res (List (Option T) × ρ)
  | [], r => return ([], r)
  | c :: cs, r => do
    let (v, r1) ← c.run S r
    let (vs, r2) ← drawRun S cs r1
    return (v :: vs, r2)

end
end SmartDNN
