import Verif.Model.Scalar

/-!
# Datasets (smart_dnn/Datasets/MNistLoader.hpp, smart_dnn/Datasets/SampleGenerator.hpp)
-/

namespace SmartDNN

/-- One byte of a file (`unsigned char`). -/
abbrev Byte := Fin 256

/-- `MNISTLoader` (MNistLoader.hpp:16-17, 52-56).  The two paths are replaced by the contents of the files
they name; `none` stands for a file that cannot be opened. -/
structure MNISTLoader where
  images : Option (List Byte)
  labels : Option (List Byte)
  batchSize : Int
  numSamples : Int

/-- `MNISTLoader::readInt` (MNistLoader.hpp:130-134) on the rest of the file: four bytes, most significant
first, assembled in a 32-bit `int`.  When fewer than four bytes are left the buffer is partly
uninitialised and its use is undefined. -/
def readInt : List Byte → Res (Int × List Byte)
  | b0 :: b1 :: b2 :: b3 :: rest =>
    .ok (toInt32 ((b0.val * 2 ^ 24 + b1.val * 2 ^ 16 + b2.val * 2 ^ 8 + b3.val : Nat) : Int), rest)
  | _ => .error .ub

/-- `unsigned char x = file.get()` (MNistLoader.hpp:85, 121): at the end of the file `get` returns
`EOF = -1`, which becomes 255. -/
def getByte : List Byte → Byte × List Byte
  | [] => (255, [])
  | b :: rest => (b, rest)

/-- `for (int i = 0; i < n; i += b)` (MNistLoader.hpp:78, 116).  A body that does not throw leads to
`i += b`, undefined if it exceeds the `int` range; `fuel` bounds the number of iterations and running
out of it is reported as divergence. -/
def stepLoop {σ : Type _} (n b : Int) (body : Int → σ → Res σ) : Nat → Int → σ → Res σ
  | fuel, i, s =>
    if i < n then
      match fuel with
      | 0 => .error .diverge
      | fuel + 1 => do
        let s' ← body i s
        if i + b < 2 ^ 31 then stepLoop n b body fuel (i + b) s' else .error .ub
    else .ok s

section
variable {T : Type} [Zero T] [One T] [Div T] [NatCast T] [LT T] [DecidableLT T]

/-- Decoding of one image batch (MNistLoader.hpp:79-93): the tensor and the rest of the file. -/
def loadImageBatch (cur rows cols : Int) (file : List Byte) : Res (Tensor T × List Byte) := do
  let shape ← Shape.make [cur, 1, rows, cols]
  forI cur (Tensor.zeros shape, file) (fun j st =>
    forI rows st (fun k st =>
      forI cols st (fun l st => do
        let (pixel, file') := getByte st.2
        let image ← st.1.setAt [j, 0, k, l] ((pixel.val : T) / ((255 : Nat) : T))
        let v ← image.at_ [j, 0, k, l]
        if v < 0 ∨ 1 < v then .error .runtimeError
        return (image, file'))))

/-- `MNISTLoader::loadImages` (MNistLoader.hpp:58-96). -/
def MNISTLoader.loadImages (L : MNISTLoader) : Res (List (Tensor T)) := do
  match L.images with
  | none => .error .runtimeError
  | some file =>
    let (magic, file) ← readInt file
    let (headerImages, file) ← readInt file
    let (rows, file) ← readInt file
    let (cols, file) ← readInt file
    let numImages := if L.numSamples ≠ -1 then L.numSamples else headerImages
    if magic ≠ 2051 then .error .runtimeError
    let st ← stepLoop numImages L.batchSize (fun i st => do
      let cur := min L.batchSize (numImages - i)
      let (image, file') ← loadImageBatch cur rows cols st.2
      return (st.1 ++ [image], file')) numImages.toNat 0 (([] : List (Tensor T)), file)
    return st.1

/-- Decoding of one label batch (MNistLoader.hpp:117-124). -/
def loadLabelBatch (cur : Int) (file : List Byte) : Res (Tensor T × List Byte) := do
  let shape ← Shape.make [cur, 10]
  forI cur (Tensor.full shape 0, file) (fun j st => do
    let (digit, file') := getByte st.2
    let label ← st.1.setAt [j, (digit.val : Int)] 1
    return (label, file'))

/-- `MNISTLoader::loadLabels` (MNistLoader.hpp:98-128). -/
def MNISTLoader.loadLabels (L : MNISTLoader) : Res (List (Tensor T)) := do
  match L.labels with
  | none => .error .runtimeError
  | some file =>
    let (magic, file) ← readInt file
    let (headerLabels, file) ← readInt file
    let numLabels := if L.numSamples ≠ -1 then L.numSamples else headerLabels
    if magic ≠ 2049 then .error .runtimeError
    let st ← stepLoop numLabels L.batchSize (fun i st => do
      let cur := min L.batchSize (numLabels - i)
      let (label, file') ← loadLabelBatch cur st.2
      return (st.1 ++ [label], file')) numLabels.toNat 0 (([] : List (Tensor T)), file)
    return st.1

/-- `MNISTLoader::loadData` (MNistLoader.hpp:19-23). -/
def MNISTLoader.loadData (L : MNISTLoader) : Res (List (Tensor T) × List (Tensor T)) := do
  let images ← L.loadImages
  let labels ← L.loadLabels
  return (images, labels)

end

/-- `static_cast<int>(x)` for a `float` `x`: truncation towards zero, as an unbounded integer. -/
class Truncate (T : Type) where
  trunc : T → Int

/-- The ramp `" .:-=+*#%@"` (MNistLoader.hpp:29). -/
def asciiChars : List Char := [' ', '.', ':', '-', '=', '+', '*', '#', '%', '@']

/-- The character of one value (MNistLoader.hpp:40-44): undefined when the scaled value does not fit in
an `int`, or is negative. -/
def asciiChar {T : Type} [Mul T] [NatCast T] [MathFn T] [Truncate T] (x : T) : Res Char :=
  let value := MathFn.toFloat x
  let k := Truncate.trunc (value * ((10 : Nat) : T))
  if -(2 ^ 31) ≤ k ∧ k < 2 ^ 31 then rd asciiChars (min k 9) else .error .ub

/-- `MNISTLoader::toAsciiArt` (MNistLoader.hpp:25-50).  `rank() - 2` is computed in `size_t`, so for a
tensor of rank below 2 the vector of leading zeros has an impossible length. -/
def toAsciiArt {T : Type} [Mul T] [NatCast T] [MathFn T] [Truncate T] (input : Tensor T) : Res (List Char) :=
  if input.shape.rank < 2 then .error .lengthError
  else
    let baseIndices : List Int := List.replicate (input.shape.rank - 2) 0
    forN 28 [] (fun i oss => do
      let oss ← forN 28 oss (fun j oss => do
        let value ← input.at_ (baseIndices ++ [(i : Int), (j : Int)])
        let c ← asciiChar value
        return oss ++ [c])
      return oss ++ ['\n'])

/-- The random stream of `generateLinearDataset` as an abstract state machine: `γ` is the joint state of the
`std::mt19937`, of `input_dist` and of `noise_dist` (which may keep a spare value); nothing is assumed about
the numbers drawn (SampleGenerator.hpp:15-18, 37-40). -/
structure Source (γ T : Type) where
  input : γ → T × γ
  noise : γ → T × γ

section
variable {γ T : Type} [Add T] [Mul T] [NatCast T]

/-- One sample (SampleGenerator.hpp:21-22, 51-52): `x` is drawn first, then the noise. -/
def drawSample (S : Source γ T) (g : γ) : (T × T) × γ :=
  let (x, g1) := S.input g
  let (e, g2) := S.noise g1
  ((x, ((2 : Nat) : T) * x + ((3 : Nat) : T) + e), g2)

/-- `generateLinearDataset(num_samples)` (SampleGenerator.hpp:11-31) from the state `g` of the freshly seeded
generator. -/
def generateLinearDataset (S : Source γ T) (n : Int) (g : γ) : Res (List (Tensor T) × List (Tensor T)) := do
  let st ← forI n ((([] : List (Tensor T)), ([] : List (Tensor T))), g) (fun _ st => do
    let ((x, y), g') := drawSample S st.2
    let shape ← Shape.make [1]
    return ((st.1.1 ++ [Tensor.full shape x], st.1.2 ++ [Tensor.full shape y]), g'))
  return st.1

/-- `generateBatchedLinearDataset(num_samples, batch_size)` (SampleGenerator.hpp:33-63).  `int` overflow in
`num_samples + batch_size` and division by zero are undefined; the division truncates. -/
def generateBatchedLinearDataset [Zero T] (S : Source γ T) (n b : Int) (g : γ) :
    Res (List (Tensor T) × List (Tensor T)) := do
  if b = 0 ∨ 2 ^ 31 ≤ n + b ∨ n + b - 1 < -(2 ^ 31) then .error .ub
  let st ← forI ((n + b - 1).tdiv b) ((([] : List (Tensor T)), ([] : List (Tensor T))), g) (fun batch st => do
    let cur := min b (n - batch * b)
    let shape ← Shape.make [cur, 1]
    let r ← forI cur ((Tensor.zeros shape, Tensor.zeros shape), st.2) (fun i r => do
      let ((x, y), g') := drawSample S r.2
      let input ← r.1.1.setAt [i, 0] x
      let target ← r.1.2.setAt [i, 0] y
      return ((input, target), g'))
    return ((st.1.1 ++ [r.1.1], st.1.2 ++ [r.1.2]), r.2))
  return st.1

end
end SmartDNN
