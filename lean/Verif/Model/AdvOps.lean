import Verif.Model.TensorOps

/-!
# `AdvancedTensorOperations<T, CPUDevice>` (smart_dnn/Tensor/AdvancedTensorOperations.hpp)
-/

namespace SmartDNN
namespace Tensor

variable {T : Type}

/-- `apply` (AdvancedTensorOperations.hpp:25-27). -/
def apply (t : Tensor T) (f : T → T) : Res (Tensor T) := t.map f

/-- `applyPair` (AdvancedTensorOperations.hpp:29-46). -/
def applyPair [Zero T] (a b : Tensor T) (f : T → T → T) : Res (Tensor T) := do
  if !(a.shape.beq b.shape) then throw .invalidArgument
  let result : Tensor T := zeros a.shape
  forN a.shape.size result (fun i result => do
    let x ← a.get i
    let y ← b.get i
    result.set i (f x y))

/-- `incrementIndices` with `axesToSum` and `resultIndices` (AdvancedTensorOperations.hpp:597-616).
As for `odoStep` the loop from the last index to the first is a recursion that treats the tail
first. -/
def incrementIndices : List Int → List Bool → List Int → List Int → Bool × List Int × List Int
  | d :: ds, ax :: axs, i :: is, r :: rs =>
    let t := incrementIndices ds axs is rs
    if t.1 then (true, i :: t.2.1, r :: t.2.2)
    else if i + 1 < d then (true, (i + 1) :: t.2.1, (if ax then r else r + 1) :: t.2.2)
    else (false, 0 :: t.2.1, (if ax then r else 0) :: t.2.2)
  | _, _, is, rs => (false, is, rs)

/-- Setup loop of `sum(tensor, axes)` (AdvancedTensorOperations.hpp:61-67): marks the axes and sets
their dimension to 1. -/
def markAxes (rank : Nat) (axes : List Nat) (dims : List Int) : Res (List Bool × List Int) :=
  axes.foldlM (fun (st : List Bool × List Int) axis =>
    if axis ≥ rank then Except.error Err.runtimeError
    else Except.ok (st.1.set axis true, st.2.set axis 1)) (List.replicate rank false, dims)

/-- `sum(tensor, axes)` (AdvancedTensorOperations.hpp:56-94). -/
def sumAxes [Zero T] [Add T] (t : Tensor T) (axes : List Nat) : Res (Tensor T) := do
  let mk ← markAxes t.shape.rank axes t.shape.dims
  let newShape ← Shape.make mk.2
  let st ← doWhileFuel (fun (st : Tensor T × List Int × List Int) => do
      let inputIndex ← computeFlatIndex t.shape st.2.1
      let resultIndex ← computeFlatIndex st.1.shape st.2.2
      let x ← t.get (toInt32 inputIndex)
      let y ← st.1.get (toInt32 resultIndex)
      let res ← st.1.set (toInt32 resultIndex) (y + x)
      let r := incrementIndices t.shape.dims mk.1 st.2.1 st.2.2
      return (r.1, res, r.2.1, r.2.2))
    (t.shape.size + 1)
    (full newShape 0, List.replicate t.shape.rank 0, List.replicate t.shape.rank 0)
  let finalShape := ((mk.2.zip mk.1).filter (fun p => p.1 != 1 || !p.2)).map Prod.fst
  let fs ← Shape.make finalShape
  st.1.reshape fs.dims

/-- `reshape(tensor, newShape)` (AdvancedTensorOperations.hpp:190-194): reshapes a copy.  The `Shape`
argument has been constructed (validated) by the caller. -/
def reshaped (t : Tensor T) (dims : List Int) : Res (Tensor T) := do
  let s ← Shape.make dims
  t.reshape s.dims

/-- `mean(tensor)` (AdvancedTensorOperations.hpp:140-142). -/
def meanAll [Zero T] [One T] [Add T] [Mul T] [Div T] [NatCast T] (t : Tensor T) : Res (Tensor T) := do
  let s ← sumAll t
  s.mulScalar (1 / (t.shape.size : T))

/-- The `newShape`/`totalElements` loop of `mean(tensor, axes)`
(AdvancedTensorOperations.hpp:111-118): kept dimensions, and the product of the reduced ones. -/
def meanShape (dims : List Int) (axes : List Nat) : List Int × Int :=
  ((List.range dims.length).map (fun i => if i ∈ axes then 1 else dims.getD i 1),
   (List.range dims.length).foldl (fun n i => if i ∈ axes then n * dims.getD i 1 else n) 1)

/-- `mean(tensor, axes)` (AdvancedTensorOperations.hpp:102-136). -/
def meanAxes [Zero T] [One T] [Add T] [Mul T] [Div T] [NatCast T] [IntCast T]
    (t : Tensor T) (axes : List Nat) : Res (Tensor T) := do
  if axes.isEmpty ∨ axes.length = t.shape.rank then meanAll t
  else
    let ms := meanShape t.shape.dims axes
    let sortedAxes := axes.mergeSort (fun a b => decide (a ≥ b))
    let result ← sortedAxes.foldlM (fun (result : Tensor T) axis =>
      if axis ≥ result.shape.rank then Except.error Err.invalidArgument
      else result.sumAxis axis) t
    let result ← result.mulScalar (1 / (ms.2 : T))
    result.reshaped ms.1

/-- `variance(tensor, meanTensor, axes)` (AdvancedTensorOperations.hpp:145-181).  The `while` loop over
three parallel iterators is the traversal of the tensor and of the broadcast view. -/
def varianceAxes [Zero T] [Add T] [Sub T] [Mul T] [Div T] [IntCast T]
    (t m : Tensor T) (axes : List Nat) : Res (Tensor T) := do
  let total ← axes.foldlM (fun (n : Int) axis =>
    if axis ≥ t.shape.rank then Except.error Err.runtimeError
    else do
      let d ← t.shape.get axis
      return n * d) 1
  let bm ← BView.make m.shape t.shape
  let xs ← t.iter
  let ms ← bm.toList m.data
  let sq : Tensor T := zeros t.shape
  let d ← transform2 (fun x y => (x - y) * (x - y)) xs ms sq.data
  let sq := { sq with data := d }
  let summed ← sq.sumAxes axes
  let result : Tensor T := zeros m.shape
  forN result.shape.size result (fun i result => do
    let s ← summed.get i
    result.set i (s / (total : T)))

/-- `variance(tensor, meanTensor)` (AdvancedTensorOperations.hpp:185-188). -/
def varianceAll [Zero T] [One T] [Add T] [Sub T] [Mul T] [Div T] [NatCast T]
    (t m : Tensor T) : Res (Tensor T) := do
  let diff ← t.sub m
  let sq ← diff.mul diff
  let s ← sq.sumAll
  s.mulScalar (1 / (t.shape.size : T))

/-- `reciprocal` (AdvancedTensorOperations.hpp:98-100); `absGt x eps` is `std::abs(x) > eps`. -/
def reciprocal [One T] [Div T] (absGt : T → T → Bool) (t : Tensor T) (eps : T) : Res (Tensor T) :=
  t.apply (fun x => if absGt x eps then 1 / x else 1 / eps)

/-- `std::swap(v[i], v[j])`. -/
def swapAt {α : Type _} (v : List α) (i j : Nat) : List α :=
  match v[i]?, v[j]? with
  | some x, some y => (v.set i y).set j x
  | _, _ => v

/-- `oldIndices` of flat position `i` in `transpose` (AdvancedTensorOperations.hpp:225-232): the
remainders, last dimension first; returns the indices and the remaining quotient.  A zero dimension
throws `runtime_error`. -/
def unflatten : List Int → Nat → Res (List Int × Nat)
  | [], temp => .ok ([], temp)
  | d :: ds, temp => do
    let r ← unflatten ds temp
    if d = 0 then throw .runtimeError
    return (((r.2 % toSizeT d : Nat) : Int) :: r.1, r.2 / toSizeT d)

/-- `transpose` (AdvancedTensorOperations.hpp:196-244). -/
def transpose [Zero T] (t : Tensor T) (dim0 dim1 : Nat) : Res (Tensor T) := do
  let rank := t.shape.rank
  if dim0 ≥ rank ∨ dim1 ≥ rank then throw .invalidArgument
  let newShape ← Shape.make (swapAt t.shape.dims dim0 dim1)
  let oldToNew := swapAt (List.range rank) dim0 dim1
  forN t.shape.size (zeros newShape) (fun i result => do
    let old ← unflatten t.shape.dims i
    let newIndices := oldToNew.map (fun d => old.1.getD d 0)
    let x ← t.at_ old.1
    result.setAt newIndices x)

/-! ### Matrix products -/

/-- `T sum = 0; for (k = 0; k < n; ++k) sum += body(k);` -/
def sumLoop [Zero T] [Add T] (n : Int) (body : Int → Res T) : Res T :=
  forI n 0 (fun k acc => do
    let x ← body k
    return acc + x)

/-- `dotProduct` (AdvancedTensorOperations.hpp:280-296). -/
def dotProduct [Zero T] [Add T] [Mul T] (a b : Tensor T) : Res (Tensor T) := do
  let a0 ← a.shape.get 0
  let b0 ← b.shape.get 0
  if a0 ≠ b0 then throw .invalidArgument
  let s ← sumLoop a0 (fun i => do
    let x ← a.get i
    let y ← b.get i
    return x * y)
  let sh ← Shape.make [1]
  fromList sh [s]

/-- `matrixVectorMul` (AdvancedTensorOperations.hpp:341-365). -/
def matrixVectorMul [Zero T] [Add T] [Mul T] (a b : Tensor T) : Res (Tensor T) := do
  let m ← a.shape.get 0
  let n ← a.shape.get 1
  let b0 ← b.shape.get 0
  if n ≠ b0 then throw .invalidArgument
  let sh ← Shape.make [m]
  forI m (full sh 0) (fun i result => do
    let s ← sumLoop n (fun j => do
      let x ← a.get (i * n + j)
      let y ← b.get j
      return x * y)
    result.set i s)

/-- `matrixMatrixMul` (AdvancedTensorOperations.hpp:379-407). -/
def matrixMatrixMul [Zero T] [Add T] [Mul T] (a b : Tensor T) : Res (Tensor T) := do
  let k ← a.shape.get 1
  let b0 ← b.shape.get 0
  if k ≠ b0 then throw .invalidArgument
  let m ← a.shape.get 0
  let n ← b.shape.get 1
  let sh ← Shape.make [m, n]
  forI m (full sh 0) (fun i result =>
    forI n result (fun j result => do
      let s ← sumLoop k (fun p => do
        let x ← a.get (i * k + p)
        let y ← b.get (p * n + j)
        return x * y)
      result.set (i * n + j) s))

/-- `dotProductSlice` (AdvancedTensorOperations.hpp:311-328): sum of products along two slice views
of equal shape, in iteration order. -/
def dotProductSlice [Zero T] [Add T] [Mul T] (a : SView) (abuf : List T) (b : SView) (bbuf : List T) :
    Res T := do
  if !(a.shape.beq b.shape) then throw .invalidArgument
  let xs ← a.toList abuf
  let ys ← b.toList bbuf
  return (List.zipWith (· * ·) xs ys).foldl (· + ·) 0

/-- `matrixMatrixMulSlice` (AdvancedTensorOperations.hpp:420-448). -/
def matrixMatrixMulSlice [Zero T] [Add T] [Mul T]
    (a : SView) (abuf : List T) (b : SView) (bbuf : List T) : Res (Tensor T) := do
  if a.shape.rank ≠ 2 ∨ b.shape.rank ≠ 2 then throw .invalidArgument
  let k ← a.shape.get 1
  let b0 ← b.shape.get 0
  if k ≠ b0 then throw .invalidArgument
  let m ← a.shape.get 0
  let n ← b.shape.get 1
  let sh ← Shape.make [m, n]
  forI m (full sh 0) (fun i result =>
    forI n result (fun j result => do
      let s ← sumLoop k (fun p => do
        let x ← a.read abuf [i, p]
        let y ← b.read bbuf [p, j]
        return x * y)
      result.set (i * n + j) s))

/-- `matmul2D3D` (AdvancedTensorOperations.hpp:533-562). -/
def matmul2D3D [Zero T] [Add T] [Mul T] (a b : Tensor T) : Res (Tensor T) := do
  if a.shape.rank ≠ 2 ∨ b.shape.rank ≠ 3 then throw .invalidArgument
  let a1 ← a.shape.get 1
  let b1 ← b.shape.get 1
  if a1 ≠ b1 then throw .invalidArgument
  let outFeatures ← a.shape.get 0
  let batchSize ← b.shape.get 0
  let seqLen ← b.shape.get 2
  let sh ← Shape.make [batchSize, outFeatures, seqLen]
  forI batchSize (full sh 0) (fun n result =>
    forI outFeatures result (fun i result =>
      forI seqLen result (fun j result => do
        let s ← sumLoop a1 (fun k => do
          let x ← a.at_ [i, k]
          let y ← b.at_ [n, k, j]
          return x * y)
        result.setAt [n, i, j] s)))

/-- `matmul3D2D` (AdvancedTensorOperations.hpp:564-595). -/
def matmul3D2D [Zero T] [Add T] [Mul T] (a b : Tensor T) : Res (Tensor T) := do
  if a.shape.rank ≠ 3 ∨ b.shape.rank ≠ 2 then throw .invalidArgument
  let a2 ← a.shape.get 2
  let b0 ← b.shape.get 0
  if a2 ≠ b0 then throw .invalidArgument
  let batchSize ← a.shape.get 0
  let m ← a.shape.get 1
  let p ← b.shape.get 1
  let sh ← Shape.make [batchSize, m, p]
  forI batchSize (full sh 0) (fun batch result =>
    forI m result (fun i result =>
      forI p result (fun j result => do
        let s ← sumLoop a2 (fun k => do
          let x ← a.at_ [batch, i, k]
          let y ← b.at_ [k, j]
          return x * y)
        result.setAt [batch, i, j] s)))

/-- `batchedMatmul` (AdvancedTensorOperations.hpp:464-530).  `incrementIndices(batchIndices,
resultShape)` uses the leading `rank - 2` entries of `resultShape`. -/
def batchedMatmul [Zero T] [Add T] [Mul T] (a b : Tensor T) : Res (Tensor T) := do
  if a.shape.rank = 3 ∧ b.shape.rank = 2 then matmul3D2D a b
  else if a.shape.rank = 2 ∧ b.shape.rank = 3 then matmul2D3D a b
  else if a.shape.rank ≠ b.shape.rank then throw .invalidArgument
  else if a.shape.rank < 3 then throw .invalidArgument
  else
    let rank := a.shape.rank
    let ka ← a.shape.get (rank - 1)
    let kb ← b.shape.get (rank - 2)
    if ka ≠ kb then throw .invalidArgument
    let batch := List.zipWith max (a.shape.dims.take (rank - 2)) (b.shape.dims.take (rank - 2))
    let m ← a.shape.get (rank - 2)
    let n ← b.shape.get (rank - 1)
    let sh ← Shape.make (batch ++ [m, n])
    let st ← doWhileFuel (fun (st : Tensor T × List Int) => do
        let res ← forI m st.1 (fun i result =>
          forI n result (fun j result => do
            let s ← sumLoop ka (fun k => do
              let x ← a.at_ (st.2 ++ [i, k])
              let y ← b.at_ (st.2 ++ [k, j])
              return x * y)
            result.setAt (st.2 ++ [i, j]) s))
        let r := odoStep batch st.2
        return (r.1, res, r.2))
      (sh.size + 1) (full sh 0, List.replicate (rank - 2) 0)
    return st.1

/-- `matmul` (AdvancedTensorOperations.hpp:246-265). -/
def matmul [Zero T] [Add T] [Mul T] (a b : Tensor T) : Res (Tensor T) := do
  if a.shape.rank = 1 ∧ b.shape.rank = 1 then dotProduct a b
  else if a.shape.rank = 2 ∧ b.shape.rank = 2 then matrixMatrixMul a b
  else if a.shape.rank = 1 ∧ b.shape.rank = 2 then
    let a0 ← a.shape.get 0
    let ar ← a.reshaped [1, a0]
    let result ← matrixMatrixMul ar b
    let r1 ← result.shape.get 1
    result.reshaped [r1]
  else if a.shape.rank = 2 ∧ b.shape.rank = 1 then matrixVectorMul a b
  else if a.shape.rank > 2 ∨ b.shape.rank > 2 then batchedMatmul a b
  else throw .invalidArgument

end Tensor
end SmartDNN
