import Verif.Model.Basic

/-!
# `Shape` (smart_dnn/Shape/Shape.hpp) and `ShapeOperations` (smart_dnn/Shape/ShapeOperations.hpp)
-/

namespace SmartDNN

/-- The fields of `struct Shape` (Shape.hpp:106-108).  They are kept as three independent fields, as
in the code, because some operations (`operator[]` for writing, moves) let them disagree. -/
structure Shape where
  /-- `_dimensions` -/
  dims : List Int
  /-- `_size` -/
  size : Nat
  /-- `_stride` -/
  stride : List Nat
  deriving DecidableEq, Repr

/-- `validateDimensions` (Shape.hpp:127-136). -/
def validateDimensions (dims : List Int) : Res Unit :=
  if dims.isEmpty then .error .invalidArgument
  else if dims.any (fun d => d ≤ 0) then .error .invalidArgument
  else .ok ()

/-- `calculateSize` (Shape.hpp:110-112): product in `size_t`, wrapping silently. -/
def calculateSize (dims : List Int) : Nat :=
  dims.foldl (fun acc d => (acc * toSizeT d) % sizeMod) 1

/-- `calculateStride` (Shape.hpp:114-120).  The C++ loop fills `stride` from the last index down with
`stride[i] = stride[i+1] * dims[i+1]`; the same recurrence is written here by recursion on the list. -/
def calculateStride : List Int → List Nat
  | [] => []
  | [_] => [1]
  | _ :: e :: rest =>
    let s := calculateStride (e :: rest)
    ((s.headD 1 * toSizeT e) % sizeMod) :: s

/-- The constructors `Shape(std::vector<int>)`, `Shape(std::initializer_list<int>)`
(Shape.hpp:18-28). -/
def Shape.make (dims : List Int) : Res Shape := do
  validateDimensions dims
  return { dims := dims, size := calculateSize dims, stride := calculateStride dims }

/-- `rank()` (Shape.hpp:30). -/
def Shape.rank (s : Shape) : Nat := s.dims.length

/-- `operator[](size_t) const` (Shape.hpp:96): unchecked. -/
def Shape.get (s : Shape) (i : Nat) : Res Int := rd s.dims i

/-- Writing through the non-const `operator[]` (Shape.hpp:97): changes a dimension only. -/
def Shape.setDim (s : Shape) (i : Nat) (d : Int) : Res Shape := do
  let ds ← wr s.dims i d
  return { s with dims := ds }

/-- The overflow-checked product loop of `reshape` (Shape.hpp:75-81). -/
def reshapeSize (dims : List Int) : Res Nat :=
  dims.foldlM (fun newSize d =>
    if newSize > (sizeMod - 1) / toSizeT d then Except.error Err.overflowError
    else Except.ok ((newSize * toSizeT d) % sizeMod)) 1

/-- `reshape(const std::vector<int>&)` (Shape.hpp:73-91), as a mutation of the shape object: the
checks come first, then `_dimensions` and `_stride` are assigned; `_size` is not. -/
def Shape.reshapeM (dims : List Int) : Mut Shape Unit := do
  Mut.lift (validateDimensions dims)
  let newSize ← Mut.lift (reshapeSize dims)
  let s ← Mut.get
  if s.size ≠ newSize then Mut.lift (.error .runtimeError)
  Mut.modify (fun s => { s with dims := dims })
  Mut.modify (fun s => { s with stride := calculateStride s.dims })

/-- `reshape` as a function from the old to the new shape object. -/
def Shape.reshape (s : Shape) (dims : List Int) : Res Shape := (Shape.reshapeM dims).exec s

/-- `operator==` (Shape.hpp:99): compares the dimension vectors only. -/
def Shape.beq (s t : Shape) : Bool := s.dims == t.dims

/-- `operator<<`/`toString` (Shape.hpp:33-49): dimensions separated by `", "` in parentheses.
The `int` inserter prints decimal numerals, as Lean's `Int` printer does. -/
def Shape.toString (s : Shape) : String :=
  "(" ++ String.intercalate ", " (s.dims.map (fun d => ToString.toString d)) ++ ")"

/-- The moved-from state left by `Shape(Shape&&)` and `operator=(Shape&&)` (Shape.hpp:15-16, 60-67):
the vectors are emptied, `_size` is copied but not reset. -/
def Shape.movedFrom (s : Shape) : Shape := { dims := [], size := s.size, stride := [] }

/-- The expression `(i < size1) ? shape1[size1 - 1 - i] : 1` (ShapeOperations.hpp:19-20, 43-44). -/
def Shape.dimFromRight (s : Shape) (i : Nat) : Res Int :=
  if i < s.rank then s.get (s.rank - 1 - i) else .ok 1

/-- `ShapeOperations::broadcastShapes` (ShapeOperations.hpp:12-35). -/
def broadcastShapes (s1 s2 : Shape) : Res Shape := do
  let result ← forN (max s1.rank s2.rank) ([] : List Int) (fun i result => do
    let dim1 ← s1.dimFromRight i
    let dim2 ← s2.dimFromRight i
    if dim1 = dim2 then return result ++ [dim1]
    else if dim1 = 1 then return result ++ [dim2]
    else if dim2 = 1 then return result ++ [dim1]
    else throw .invalidArgument)
  Shape.make result.reverse

/-- `ShapeOperations::areBroadcastable` (ShapeOperations.hpp:37-52); the early `return false` of the
loop is carried as a Boolean. -/
def areBroadcastable (s1 s2 : Shape) : Res Bool :=
  forN (max s1.rank s2.rank) true (fun i ok => do
    if ok then
      let dimA ← s1.dimFromRight i
      let dimB ← s2.dimFromRight i
      return !(dimA != dimB && dimA != 1 && dimB != 1)
    else return false)

/-- `ShapeOperations::concat` (ShapeOperations.hpp:54-58). -/
def Shape.concat (s1 s2 : Shape) : Res Shape := Shape.make (s1.dims ++ s2.dims)

/-- The loop of `computeFlatIndex` (ShapeOperations.hpp:66-76): bounds check, then
`flatIndex += size_t(indices[i]) * strides[i]` in `size_t`.  The `i`-th elements of the three
vectors are consumed together; the code reads `shape[i]` and `strides[i]` unchecked, which is
undefined if those vectors are shorter than the index vector. -/
def flatIndexLoop : List Int → List Nat → List Int → Nat → Res Nat
  | _, _, [], acc => .ok acc
  | d :: ds, s :: ss, i :: is, acc =>
    if i < 0 ∨ i ≥ d then .error .outOfRange
    else flatIndexLoop ds ss is ((acc + toSizeT i * s) % sizeMod)
  | [], _, _ :: _, _ => .error .ub
  | _ :: _, [], _ :: _, _ => .error .ub

/-- `computeFlatIndex` (ShapeOperations.hpp:61-77). -/
def computeFlatIndex (s : Shape) (indices : List Int) : Res Nat :=
  if indices.length ≠ s.rank then .error .invalidArgument
  else flatIndexLoop s.dims s.stride indices 0

end SmartDNN
