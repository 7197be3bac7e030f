import Verif.Model.Views

/-!
# `TensorOperations<T, CPUDevice>` (smart_dnn/Tensor/TensorOperations.hpp) and the operators of
`Tensor` (smart_dnn/Tensor/Tensor.impl.hpp) and `TensorFactory`
-/

namespace SmartDNN
namespace Tensor

variable {T : Type}

/-- `std::transform(lhs.begin(), lhs.end(), rhs.begin(), result.begin(), op)` when the destination is
a buffer distinct from both sources: the source sequences are `xs`, `ys`.  Dereferencing an exhausted
`rhs` view throws `out_of_range`; writing past the destination is UB. -/
def transform2 (op : T → T → T) (xs ys out : List T) : Res (List T) :=
  if ys.length < xs.length then .error .outOfRange
  else if out.length < xs.length then .error .ub
  else .ok (List.zipWith op xs ys ++ out.drop xs.length)

/-- `add`, `subtract`, `multiply`, `divide` (TensorOperations.hpp:80-122) with `addImpl`, `minusImpl`,
`multiplyImpl`, `divideImpl` (TensorOperations.hpp:337-367); `op` is the `std::plus` etc. functor. -/
def binop [Zero T] (op : T → T → T) (l r : Tensor T) : Res (Tensor T) := do
  let rs ← broadcastShapes l.shape r.shape
  let result : Tensor T := zeros rs
  let lv ← BView.make l.shape rs
  let rv ← BView.make r.shape rs
  if lv.shape.size ≠ rv.shape.size then throw .runtimeError
  let xs ← lv.toList l.data
  let ys ← rv.toList r.data
  let d ← transform2 op xs ys result.data
  return { result with data := d }

/-- `operator+` (Tensor.impl.hpp:96-99). -/
def add [Zero T] [Add T] (l r : Tensor T) : Res (Tensor T) := binop (· + ·) l r
/-- `operator-` (Tensor.impl.hpp:101-104). -/
def sub [Zero T] [Sub T] (l r : Tensor T) : Res (Tensor T) := binop (· - ·) l r
/-- `operator*` (Tensor.impl.hpp:106-109). -/
def mul [Zero T] [Mul T] (l r : Tensor T) : Res (Tensor T) := binop (· * ·) l r
/-- `operator/` (Tensor.impl.hpp:111-114). -/
def div [Zero T] [Div T] (l r : Tensor T) : Res (Tensor T) := binop (· / ·) l r

/-- `addInPlace`, `subtractInPlace`, `multiplyInPlace`, `divideInPlace`
(TensorOperations.hpp:124-170) as a mutation of `lhs`:
`std::transform(lhs.begin(), lhs.end(), rhs_broadcast.begin(), lhs.begin(), op)` element by element.
`r = none` models `a op= a`: the view then reads the buffer that is being written.  The state is
`lhs` together with the iterator of the view; what an exception leaves behind is visible. -/
def binopInPlaceM (op : T → T → T) (r : Option (Tensor T)) : Mut (Tensor T) Unit := fun l =>
  match (do
    let rt := r.getD l
    let rs ← broadcastShapes l.shape rt.shape
    let rv ← BView.make rt.shape rs
    if l.shape.size ≠ rv.shape.size then throw .runtimeError
    return rv : Res BView) with
  | .error e => (.error e, l)
  | .ok rv =>
    let loop : Mut (Tensor T × ViewIter) Unit := Mut.forN l.shape.size (fun k => do
      let st ← Mut.get
      let x ← Mut.lift (rd st.1.data k)
      let y ← Mut.lift (rv.deref (match r with | some t => t.data | none => st.1.data) st.2)
      let d ← Mut.lift (wr st.1.data k (op x y))
      Mut.set ({ st.1 with data := d }, st.2.next rv.shape))
    let out := loop (l, ViewIter.begin rv.shape)
    (out.1, out.2.1)

/-- The tensor after `l op= r`, or the failure. -/
def binopInPlace (op : T → T → T) (l : Tensor T) (r : Option (Tensor T)) : Res (Tensor T) :=
  (binopInPlaceM op r).exec l

/-- `operator+=(const Tensor&)` (Tensor.impl.hpp:48-52). -/
def addAssign [Add T] (l : Tensor T) (r : Option (Tensor T)) : Res (Tensor T) :=
  binopInPlace (· + ·) l r
/-- `operator-=(const Tensor&)` (Tensor.impl.hpp:54-58). -/
def subAssign [Sub T] (l : Tensor T) (r : Option (Tensor T)) : Res (Tensor T) :=
  binopInPlace (· - ·) l r
/-- `operator*=(const Tensor&)` (Tensor.impl.hpp:60-64). -/
def mulAssign [Mul T] (l : Tensor T) (r : Option (Tensor T)) : Res (Tensor T) :=
  binopInPlace (· * ·) l r
/-- `operator/=(const Tensor&)` (Tensor.impl.hpp:66-70). -/
def divAssign [Div T] (l : Tensor T) (r : Option (Tensor T)) : Res (Tensor T) :=
  binopInPlace (· / ·) l r

/-- `apply`, `applyImpl`, `sqrt` (TensorOperations.hpp:222-226, 279-287, 389-391) and the fresh-result
scalar operations (`applyScalarImpl`, TensorOperations.hpp:332-335): `std::transform` of the whole
range into a fresh buffer of the same size. -/
def map (f : T → T) (t : Tensor T) : Res (Tensor T) := do
  let xs ← t.iter
  return ⟨t.shape, xs.map f⟩

/-- `applyInPlace` and the in-place scalar operations (TensorOperations.hpp:202-220, 228-231,
Tensor.impl.hpp:302-306): element `i` is read and then written, so the result is a map over the first
`size` elements. -/
def mapInPlace (f : T → T) (t : Tensor T) : Res (Tensor T) := do
  let xs ← t.iter
  return { t with data := xs.map f ++ t.data.drop t.shape.size }

/-- `addScalar` (TensorOperations.hpp:172-176), `t + s` and `s + t` (Tensor.impl.hpp:116-119,
192-195). -/
def addScalar [Add T] (t : Tensor T) (s : T) : Res (Tensor T) := t.map (· + s)
/-- `subtractScalar` (TensorOperations.hpp:178-182), `t - s` (Tensor.impl.hpp:121-124). -/
def subScalar [Sub T] (t : Tensor T) (s : T) : Res (Tensor T) := t.map (· - s)
/-- `multiplyScalar` (TensorOperations.hpp:184-188), `t * s` and `s * t` (Tensor.impl.hpp:126-129,
202-205). -/
def mulScalar [Mul T] (t : Tensor T) (s : T) : Res (Tensor T) := t.map (· * s)
/-- `divideScalar` (TensorOperations.hpp:190-194, 382-387), `t / s` (Tensor.impl.hpp:131-134). -/
def divScalar [Zero T] [DecidableEq T] [Div T] (t : Tensor T) (s : T) : Res (Tensor T) :=
  if s = 0 then .error .invalidArgument else t.map (· / s)
/-- `operator+=(T)` (Tensor.impl.hpp:72-76). -/
def addScalarAssign [Add T] (t : Tensor T) (s : T) : Res (Tensor T) := t.mapInPlace (· + s)
/-- `operator/=(T)` (Tensor.impl.hpp:90-94, TensorOperations.hpp:217-220, 382-387). -/
def divScalarAssign [Zero T] [DecidableEq T] [Div T] (t : Tensor T) (s : T) : Res (Tensor T) :=
  if s = 0 then .error .invalidArgument else t.mapInPlace (· / s)
/-- Unary minus (Tensor.impl.hpp:156-159): `multiplyScalar(-1)`. -/
def neg [Mul T] [Neg T] [One T] (t : Tensor T) : Res (Tensor T) := t.mulScalar (-1)
/-- `s - t` (Tensor.impl.hpp:197-200): `-t + s`. -/
def scalarSub [Add T] [Mul T] [Neg T] [One T] (s : T) (t : Tensor T) : Res (Tensor T) := do
  let n ← t.neg
  n.addScalar s
/-- `s / t` (Tensor.impl.hpp:207-210, `inverseDivideScalar` TensorOperations.hpp:196-200): a tensor
filled with `s`, divided element by element by `t` (`divideImpl`, 361-367; sizes are equal by
construction). -/
def scalarDiv [Div T] (s : T) (t : Tensor T) : Res (Tensor T) := do
  let result := full t.shape s
  let xs ← result.iter
  let ys ← t.iter
  return { result with data := List.zipWith (· / ·) xs ys }

/-- `sum(tensor)` (TensorOperations.hpp:233-239). -/
def sumAll [Zero T] [Add T] (t : Tensor T) : Res (Tensor T) := do
  let xs ← t.iter
  let s ← Shape.make [1]
  return full s (xs.foldl (· + ·) 0)

/-- `sum(tensor, axis)` (TensorOperations.hpp:241-277). -/
def sumAxis [Zero T] [Add T] (t : Tensor T) (axis : Nat) : Res (Tensor T) := do
  if axis ≥ t.shape.rank then throw .runtimeError
  if t.shape.rank = 1 then sumAll t
  else
    let newShape ← Shape.make (t.shape.dims.eraseIdx axis)
    let st ← forN t.shape.size (full newShape (0 : T), List.replicate t.shape.rank (0 : Int))
      (fun i st => do
        let x ← t.get i
        let res ← st.1.modifyAt (st.2.eraseIdx axis) (· + x)
        return (res, (odoStep t.shape.dims st.2).2))
    return st.1

/-- `createIdentity(size)` (TensorOperations.hpp:313-324): the iterator writes the `size*size` values
in row-major order. -/
def identity [Zero T] [One T] (size : Int) : Res (Tensor T) := do
  let s ← Shape.make [size, size]
  let out ← forI size ([] : List T) (fun i out =>
    forI size out (fun j out => return out ++ [if i = j then 1 else 0]))
  return ⟨s, out⟩

/-- `zeros(Shape)`, `ones(Shape)` (TensorFactory.hpp:13-33): `createFill`
(TensorOperations.hpp:298-300). -/
def ones [One T] (s : Shape) : Tensor T := full s 1

/-- `zeros(int)` (TensorFactory.hpp:30-33). -/
def zerosN [Zero T] (n : Int) : Res (Tensor T) := do
  let s ← Shape.make [n]
  return full s 0

/-- `ones(int)` (TensorFactory.hpp:19-22). -/
def onesN [One T] (n : Int) : Res (Tensor T) := do
  let s ← Shape.make [n]
  return full s 1

end Tensor
end SmartDNN
