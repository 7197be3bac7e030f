import Verif.Model.Tensor

/-!
# Tensor objects, buffers and ownership

(smart_dnn/Tensor/TensorData.hpp:64-65, TensorDataCPU.impl.hpp, Tensor.impl.hpp:8-46)

A program's tensor variables hold a shape and a `std::unique_ptr<T[]>`; the buffers live on a heap.
Sharing a buffer, freeing one that is still in use or leaking one would be visible here.
-/

namespace SmartDNN

/-- A tensor object: `shape_` and `data_` (TensorData.hpp:64-65); `none` is the null pointer. -/
structure Obj where
  shape : Shape
  ptr : Option Nat

/-- The tensor variables of a program (`none` after the end of their lifetime) and the heap. -/
structure HState (T : Type) where
  heap : Nat → Option (List T)
  vars : List (Option Obj)

/-- Statements about tensor variables, which are numbered in order of their construction. -/
inductive Stmt (T : Type) where
  | zeros (s : Shape)
  | full (s : Shape) (v : T)
  | fromList (s : Shape) (values : List T)
  | copy (src : Nat)
  | move (src : Nat)
  | copyAssign (dst src : Nat)
  | moveAssign (dst src : Nat)
  | set (dst i : Nat) (v : T)
  | setAt (dst : Nat) (indices : List Int) (v : T)
  | update (dst i src j : Nat) (op : T → T → T)
  | fill (dst : Nat) (v : T)
  | reshape (dst : Nat) (dims : List Int)
  | destroy (dst : Nat)

namespace HState
variable {T : Type}

/-- The tensor object of a variable; using a variable outside its lifetime is undefined. -/
def obj (st : HState T) (x : Nat) : Res Obj :=
  match st.vars[x]? with
  | some (some o) => .ok o
  | _ => .error .ub

/-- The buffer behind a pointer; null and dangling pointers must not be dereferenced. -/
def deref (st : HState T) (p : Option Nat) : Res (List T) :=
  match p with
  | none => .error .ub
  | some a => match st.heap a with
    | some d => .ok d
    | none => .error .ub

/-- Overwrite a buffer. -/
def store (st : HState T) (a : Nat) (d : List T) : HState T :=
  { st with heap := fun b => if b = a then some d else st.heap b }

/-- `delete[]` through `unique_ptr`: nothing for a null pointer. -/
def free (st : HState T) (p : Option Nat) : HState T :=
  match p with
  | none => st
  | some a => { st with heap := fun b => if b = a then none else st.heap b }

/-- A new variable. -/
def push (st : HState T) (o : Obj) : HState T := { st with vars := st.vars ++ [some o] }

/-- Overwrite a variable's object. -/
def setObj (st : HState T) (x : Nat) (o : Option Obj) : HState T := { st with vars := st.vars.set x o }

variable [Zero T]

/-- `std::copy_n(other.data_.get(), n, …)`: the first `n` elements behind a pointer. -/
def copyN (st : HState T) (p : Option Nat) (n : Nat) : Res (List T) := do
  let d ← st.deref p
  if n ≤ d.length then .ok (d.take n) else .error .ub

/-- A constructor that fills a new buffer: `make_unique` at an address chosen by the allocator, then a new
variable (TensorDataCPU.impl.hpp:10-20, 38-49). -/
def construct (alloc : HState T → Nat) (t : Tensor T) (st : HState T) : HState T :=
  let a := alloc st
  (st.store a t.data).push ⟨t.shape, some a⟩

/-- One statement.  `alloc` is the allocator. -/
def step (alloc : HState T → Nat) (s : Stmt T) (st : HState T) : Res Unit × HState T :=
  let r : Res (Res Unit × HState T) := match s with
    -- `Tensor(Shape)` (Tensor.impl.hpp:8-9, TensorDataCPU.impl.hpp:10-14)
    | .zeros s => .ok (.ok (), st.construct alloc (Tensor.zeros s))
    -- `Tensor(Shape, T)` (Tensor.impl.hpp:11-12, TensorDataCPU.impl.hpp:16-20)
    | .full s v => .ok (.ok (), st.construct alloc (Tensor.full s v))
    -- `Tensor(Shape, initializer_list)`, `Tensor(Shape, vector)` (Tensor.impl.hpp:31-38,
    -- TensorDataCPU.impl.hpp:37-56)
    | .fromList s values => do
      let t ← Tensor.fromList s values
      return (.ok (), st.construct alloc t)
    -- copy constructor (Tensor.impl.hpp:23-24, TensorDataCPU.impl.hpp:32-36)
    | .copy x => do
      let o ← st.obj x
      let a := alloc st
      let st := st.store a (List.replicate o.shape.size 0)
      let d ← st.copyN o.ptr o.shape.size
      return (.ok (), (st.store a d).push ⟨o.shape, some a⟩)
    -- move constructor (Tensor.impl.hpp:26-29, TensorData.hpp:31): the buffer changes owner, then
    -- `other.data_` is move-assigned from a temporary one-element tensor
    | .move x => do
      let o ← st.obj x
      let st := st.push o
      let one ← Shape.make [1]
      let a := alloc st
      let st := st.store a (List.replicate one.size 0)
      return (.ok (), st.setObj x (some ⟨one, some a⟩))
    -- copy assignment (Tensor.impl.hpp:40-46, TensorDataCPU.impl.hpp:58-66)
    | .copyAssign x y => do
      let d ← st.obj x
      let s ← st.obj y
      if x = y then return (.ok (), st)
      let a := alloc st
      let st := st.store a (List.replicate s.shape.size 0)
      let st := st.free d.ptr
      let st := st.setObj x (some ⟨s.shape, some a⟩)
      let s ← st.obj y
      let v ← st.copyN s.ptr s.shape.size
      return (.ok (), st.store a v)
    -- defaulted move assignment (Tensor.hpp:30, TensorData.hpp:33, Shape.hpp:60-67): on self-assignment the
    -- shape is guarded, and `unique_ptr` releases before it resets
    | .moveAssign x y => do
      let d ← st.obj x
      let s ← st.obj y
      if x = y then return (.ok (), st)
      let st := st.setObj y (some ⟨s.shape.movedFrom, none⟩)
      let st := st.setObj x (some ⟨s.shape, s.ptr⟩)
      return (.ok (), st.free d.ptr)
    -- `t[i] = v` (Tensor.impl.hpp:136-139)
    | .set x i v => do
      let o ← st.obj x
      let d ← st.deref o.ptr
      let d' ← wr d i v
      return (.ok (), st.store (o.ptr.getD 0) d')
    -- `t.at(indices) = v` (Tensor.impl.hpp:146-149)
    | .setAt x indices v => do
      let o ← st.obj x
      let k ← computeFlatIndex o.shape indices
      let d ← st.deref o.ptr
      let d' ← wr d k v
      return (.ok (), st.store (o.ptr.getD 0) d')
    -- `t[i] = op(t[i], u[j])`, the building block of the in-place operators (TensorOperations.hpp:124-170)
    | .update x i y j op => do
      let o ← st.obj x
      let o' ← st.obj y
      let d ← st.deref o.ptr
      let d' ← st.deref o'.ptr
      let u ← rd d i
      let w ← rd d' j
      let d ← wr d i (op u w)
      return (.ok (), st.store (o.ptr.getD 0) d)
    -- `getData().fill(v)` (TensorData.hpp:51)
    | .fill x v => do
      let o ← st.obj x
      let d ← st.deref o.ptr
      if o.shape.size ≤ d.length then
        return (.ok (), st.store (o.ptr.getD 0) (List.replicate o.shape.size v ++ d.drop o.shape.size))
      else throw .ub
    -- `reshape(dims)` (Tensor.impl.hpp:271-285)
    | .reshape x dims => do
      let o ← st.obj x
      let r := Shape.reshapeM dims o.shape
      return (r.1, st.setObj x (some ⟨r.2, o.ptr⟩))
    -- end of lifetime (TensorData.hpp:37)
    | .destroy x => do
      let o ← st.obj x
      return (.ok (), (st.free o.ptr).setObj x none)
  match r with
  | .ok out => out
  | .error e => (.error e, st)

/-- A program that catches every exception and goes on; undefined behaviour ends it. -/
def run (alloc : HState T → Nat) : List (Stmt T) → HState T → Res (HState T)
  | [], st => .ok st
  | s :: ss, st => match step alloc s st with
    | (.ok _, st') => run alloc ss st'
    | (.error e, st') => if e.isException then run alloc ss st' else .error e

/-- The empty program state. -/
def empty : HState T := ⟨fun _ => none, []⟩

end HState
end SmartDNN
