import Verif.Model.Heap
import Verif.Spec.Index

/-!
# Specification of value semantics: a purely functional store

Every variable holds a value of its own: a shape and the elements, or no elements at all for a tensor that was the
source of a move *assignment*.
-/

namespace SmartDNN
namespace Spec

/-- The value of a tensor variable. -/
structure Value (T : Type) where
  shape : Shape
  data : Option (List T)

variable {T : Type} [Zero T]

/-- The value of an intact tensor. -/
def Value.of (t : Tensor T) : Value T := ⟨t.shape, some t.data⟩

/-- One statement on the functional store. -/
def storeStep (s : Stmt T) (st : List (Option (Value T))) : Res Unit × List (Option (Value T)) :=
  let value (x : Nat) : Res (Value T) := match st[x]? with
    | some (some v) => .ok v
    | _ => .error .ub
  let tensor (x : Nat) : Res (Tensor T) := match st[x]? with
    | some (some ⟨sh, some d⟩) => .ok ⟨sh, d⟩
    | _ => .error .ub
  let r : Res (Res Unit × List (Option (Value T))) := match s with
    | .zeros s => .ok (.ok (), st ++ [some (Value.of (Tensor.zeros s))])
    | .full s v => .ok (.ok (), st ++ [some (Value.of (Tensor.full s v))])
    | .fromList s values => do
      let t ← Tensor.fromList s values
      return (.ok (), st ++ [some (Value.of t)])
    | .copy x => do
      let t ← tensor x
      return (.ok (), st ++ [some (Value.of t)])
    | .move x => do
      let v ← value x
      return (.ok (), st.set x (some (Value.of (ofFn [1] (fun _ => 0)))) ++ [some v])
    | .copyAssign x y => do
      let _ ← value x
      let _ ← value y
      if x = y then return (.ok (), st)
      let t ← tensor y
      return (.ok (), st.set x (some (Value.of t)))
    | .moveAssign x y => do
      let _ ← value x
      let v ← value y
      if x = y then return (.ok (), st)
      return (.ok (), (st.set y (some ⟨v.shape.movedFrom, none⟩)).set x (some v))
    | .set x i v => do
      let t ← tensor x
      let t' ← t.set i v
      return (.ok (), st.set x (some (Value.of t')))
    | .setAt x indices v => do
      let w ← value x
      let _ ← computeFlatIndex w.shape indices
      let t ← tensor x
      let t' ← t.setAt indices v
      return (.ok (), st.set x (some (Value.of t')))
    | .update x i y j op => do
      let t ← tensor x
      let u ← tensor y
      let a ← t.get i
      let b ← u.get j
      let t' ← t.set i (op a b)
      return (.ok (), st.set x (some (Value.of t')))
    | .fill x v => do
      let t ← tensor x
      return (.ok (), st.set x (some (Value.of (Tensor.full t.shape v))))
    | .reshape x dims => do
      let w ← value x
      let r := Shape.reshapeM dims w.shape
      return (r.1, st.set x (some ⟨r.2, w.data⟩))
    | .destroy x => do
      let _ ← value x
      return (.ok (), st.set x none)
  match r with
  | .ok out => out
  | .error e => (.error e, st)

/-- A program on the functional store. -/
def storeRun : List (Stmt T) → List (Option (Value T)) → Res (List (Option (Value T)))
  | [], st => .ok st
  | s :: ss, st => match storeStep s st with
    | (.ok _, st') => storeRun ss st'
    | (.error e, st') => if e.isException then storeRun ss st' else .error e

/-- What a program can observe of variable `x`: its shape, and its elements unless its data pointer is null. -/
def observe (st : HState T) (x : Nat) : Option (Value T) :=
  match st.vars[x]? with
  | some (some o) => some ⟨o.shape, o.ptr.bind st.heap⟩
  | _ => none

/-- An allocator returns an address that is not in use, as long as only finitely many are. -/
def Allocator (alloc : HState T → Nat) : Prop :=
  ∀ st : HState T, (∃ bound, ∀ a, st.heap a ≠ none → a < bound) → st.heap (alloc st) = none

/-- Every buffer on the heap has exactly one owner among the live variables. -/
def UniquelyOwned (st : HState T) : Prop :=
  ∀ a, st.heap a ≠ none ↔ ∃! x : Nat, ∃ o, st.vars[x]? = some (some o) ∧ o.ptr = some a

end Spec
end SmartDNN
