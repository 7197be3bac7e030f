import Verif.Model.Shape

/-!
# `TensorData<T, CPUDevice>` and `Tensor<T>`

(smart_dnn/Tensor/TensorData.hpp, TensorDataCPU.impl.hpp, Tensor.hpp, Tensor.impl.hpp)

`Tensor<T>` only wraps a `TensorData<T>` member, so one structure models both.  Ownership, copies and
moves are modelled in `Verif.Model.Heap`; here a tensor is its shape object and the contents of its
buffer.
-/

namespace SmartDNN

/-- `shape_` and the contents of `data_` (TensorData.hpp:64-65). -/
structure Tensor (T : Type) where
  shape : Shape
  data : List T
  deriving DecidableEq, Repr

namespace Tensor

variable {T : Type}

/-- `TensorData(Shape)` (TensorDataCPU.impl.hpp:10-14): zero filled. -/
def zeros [Zero T] (s : Shape) : Tensor T := ⟨s, List.replicate s.size 0⟩

/-- `TensorData(Shape, T value)` (TensorDataCPU.impl.hpp:16-20). -/
def full (s : Shape) (v : T) : Tensor T := ⟨s, List.replicate s.size v⟩

/-- `TensorData(Shape, const T* data)` (TensorDataCPU.impl.hpp:22-26): copies `size` elements from a
pointer; `src` is the memory from the pointer to the end of its allocation. -/
def fromPtr (s : Shape) (src : List T) : Res (Tensor T) :=
  if s.size ≤ src.length then .ok ⟨s, src.take s.size⟩ else .error .ub

/-- `TensorData(Shape, std::initializer_list<T>)` (TensorDataCPU.impl.hpp:38-42): copies *all* values
into a buffer of `size` zero-initialised elements, without comparing the lengths. -/
def fromList [Zero T] (s : Shape) (values : List T) : Res (Tensor T) :=
  if values.length ≤ s.size then
    .ok ⟨s, values ++ List.replicate (s.size - values.length) 0⟩
  else .error .ub

/-- The range `[begin(), end())` of a `TensorData` (TensorData.hpp:60-61): `size` elements starting
at the buffer. -/
def iter (t : Tensor T) : Res (List T) :=
  if t.shape.size ≤ t.data.length then .ok (t.data.take t.shape.size) else .error .ub

/-- Reading `at(indices)` (TensorDataCPU.impl.hpp:93-96, Tensor.impl.hpp:151-154). -/
def at_ (t : Tensor T) (indices : List Int) : Res T := do
  let k ← computeFlatIndex t.shape indices
  rd t.data k

/-- Assigning through `at(indices)` (TensorDataCPU.impl.hpp:88-91, Tensor.impl.hpp:146-149). -/
def setAt (t : Tensor T) (indices : List Int) (v : T) : Res (Tensor T) := do
  let k ← computeFlatIndex t.shape indices
  let d ← wr t.data k v
  return { t with data := d }

/-- Compound assignment through `at`: `t.at(indices) += v` or similar; `f` is the update. -/
def modifyAt (t : Tensor T) (indices : List Int) (f : T → T) : Res (Tensor T) := do
  let k ← computeFlatIndex t.shape indices
  let x ← rd t.data k
  let d ← wr t.data k (f x)
  return { t with data := d }

/-- Unchecked `operator[](size_t)` for reading (Tensor.impl.hpp:141-144). -/
def get (t : Tensor T) (i : Int) : Res T := rd t.data i

/-- Unchecked `operator[](size_t)` for writing (Tensor.impl.hpp:136-139). -/
def set (t : Tensor T) (i : Int) (v : T) : Res (Tensor T) := do
  let d ← wr t.data i v
  return { t with data := d }

/-- `reshape` (Tensor.impl.hpp:271-285, TensorData.hpp:53-54): mutates the shape object only. -/
def reshapeM (dims : List Int) : Mut (Tensor T) Unit := fun t =>
  let r := Shape.reshapeM dims t.shape
  (r.1, { t with shape := r.2 })

/-- The tensor after `reshape(dims)`, or the failure. -/
def reshape (t : Tensor T) (dims : List Int) : Res (Tensor T) := (reshapeM dims).exec t

/-- `operator==` (TensorDataCPU.impl.hpp:68-71): shapes, then the first `size` elements.
The comparison reads `size` elements of both buffers and uses the element type's `==`, which need not be an equivalence
(a NaN differs from itself). -/
def beq [BEq T] (a b : Tensor T) : Res Bool :=
  if a.shape.beq b.shape then
    if a.shape.size ≤ a.data.length ∧ a.shape.size ≤ b.data.length then
      .ok (a.data.take a.shape.size == b.data.take a.shape.size)
    else .error .ub
  else .ok false

/-- `operator!=` (TensorDataCPU.impl.hpp:73-76). -/
def bne [BEq T] (a b : Tensor T) : Res Bool := do
  let r ← a.beq b
  return !r

/-- `fill(value)` (TensorData.hpp:51). -/
def fill (t : Tensor T) (v : T) : Res (Tensor T) :=
  if t.shape.size ≤ t.data.length then
    .ok { t with data := List.replicate t.shape.size v ++ t.data.drop t.shape.size }
  else .error .ub

/-- `Tensor::slice(dim, index)` (Tensor.impl.hpp:287-300).  `strides[dim]` and `shape.begin() + dim`
are unchecked; the offset is narrowed to `int`; the slice copies a *contiguous* block of
`Shape(shape).size()` elements from `data() + offset` (constructor at TensorDataCPU.impl.hpp:22-26). -/
def slice (t : Tensor T) (dim index : Int) : Res (Tensor T) := do
  let st ← rd t.shape.stride dim
  let offset := toInt32 (index * st)
  if dim.toNat < t.shape.dims.length then
    let s ← Shape.make (t.shape.dims.eraseIdx dim.toNat)
    if 0 ≤ offset ∧ offset.toNat ≤ t.data.length then
      fromPtr s (t.data.drop offset.toNat)
    else throw .ub
  else throw .ub

end Tensor
end SmartDNN
