import Verif.Model.Tensor

/-!
# `BroadcastView` and `SliceView`

(smart_dnn/Tensor/BroadcastView.hpp, smart_dnn/Tensor/SliceView.hpp)
-/

namespace SmartDNN

/-- One odometer step, shared by `BroadcastView::Iterator::operator++` (BroadcastView.hpp:109-115),
`SliceView::Iterator::operator++` (SliceView.hpp:120-126), `TensorOperations::sum`
(TensorOperations.hpp:268-273) and `incrementIndices` (AdvancedTensorOperations.hpp:602-615):

    for (int i = n-1; i >= 0; --i) { if (++idx[i] < dims[i]) return true; idx[i] = 0; }  return false;

The loop runs from the last position to the first; here it is a recursion that processes the tail
first and touches the head only if the tail wrapped around. -/
def odoStep : List Int → List Int → Bool × List Int
  | d :: ds, i :: is =>
    let r := odoStep ds is
    if r.1 then (true, i :: r.2)
    else if i + 1 < d then (true, (i + 1) :: r.2)
    else (false, 0 :: r.2)
  | _, is => (false, is)

/-- `while (cond) body` with an explicit bound on the number of iterations; running out of fuel is
reported as `diverge`, so a theorem concluding `ok` also proves termination. -/
def whileFuel {σ : Type _} (cond : σ → Bool) (body : σ → Res σ) : Nat → σ → Res σ
  | 0, s => if cond s then .error .diverge else .ok s
  | n + 1, s => if cond s then body s >>= whileFuel cond body n else .ok s

/-- `do body while (...)`: the body returns the loop condition. -/
def doWhileFuel {σ : Type _} (body : σ → Res (Bool × σ)) : Nat → σ → Res σ
  | 0, _ => .error .diverge
  | n + 1, s => do
    let r ← body s
    if r.1 then doWhileFuel body n r.2 else return r.2

/-! ## BroadcastView -/

/-- Members of `BroadcastView` (BroadcastView.hpp:16-18).  The referenced tensor's shape is copied
here; its buffer is passed to every read, because the referenced tensor may be written while the view
is alive (in-place operators). -/
structure BView where
  orig : Shape
  shape : Shape
  factors : List Int
  deriving Repr

/-- The loop of `calculateBroadcastFactors` (BroadcastView.hpp:24-41), on the dimension vectors
reversed (the loop runs from the last dimension to the first); returns the reversed factors. -/
def broadcastFactorsRev : List Int → List Int → Res (List Int)
  | _, [] => .ok []
  | origRev, b :: bs => do
    let orig := origRev.headD 1
    let f ← if orig = b then .ok 1 else if orig = 1 then .ok 0 else .error .runtimeError
    let fs ← broadcastFactorsRev origRev.tail bs
    return f :: fs

/-- The constructor (BroadcastView.hpp:60-66). -/
def BView.make (orig target : Shape) : Res BView := do
  let ok ← areBroadcastable orig target
  if !ok then throw .runtimeError
  let fs ← broadcastFactorsRev orig.dims.reverse target.dims.reverse
  return { orig := orig, shape := target, factors := fs.reverse }

/-- The loop of `mapIndex` (BroadcastView.hpp:50-55) on reversed vectors (last position first):
indices, factors of the view and strides of the original.  It stops when either the view's or the
original's dimensions are exhausted.  `flatIndex` is an `int`; the `size_t` product is added and
narrowed. -/
def mapIndexRev : List Int → List Int → List Nat → Int → Int
  | i :: is, f :: fs, s :: ss, acc =>
    mapIndexRev is fs ss (if f = 1 then toInt32 (acc + i * (s : Int)) else acc)
  | _, _, _, acc => acc

/-- `mapIndex` (BroadcastView.hpp:44-57). -/
def BView.mapIndex (v : BView) (indices : List Int) : Int :=
  mapIndexRev indices.reverse v.factors.reverse v.orig.stride.reverse 0

/-- `operator[]` (BroadcastView.hpp:70-76).  Simplification: an index vector whose length differs from
the view's rank is reported as `ub` (the code reads past a shorter vector and ignores the excess of a
longer one). -/
def BView.read {T : Type} (v : BView) (buf : List T) (indices : List Int) : Res T :=
  if indices.length = v.shape.rank then rd buf (v.mapIndex indices) else .error .ub

/-- State of an iterator of a view: `current_indices_` and `is_end_`
(BroadcastView.hpp:81-82, SliceView.hpp:89-90). -/
structure ViewIter where
  indices : List Int
  isEnd : Bool
  deriving Repr, DecidableEq

/-- `begin()` (BroadcastView.hpp:92-97, 139; SliceView.hpp:99-104, 150): all indices 0. -/
def ViewIter.begin (s : Shape) : ViewIter := ⟨List.replicate s.rank 0, false⟩

/-- `operator++` (BroadcastView.hpp:106-119, SliceView.hpp:117-130). -/
def ViewIter.next (s : Shape) (it : ViewIter) : ViewIter :=
  if it.isEnd then it
  else
    let r := odoStep s.dims it.indices
    ⟨r.2, !r.1⟩

/-- `operator*` (BroadcastView.hpp:99-104). -/
def BView.deref {T : Type} (v : BView) (buf : List T) (it : ViewIter) : Res T :=
  if it.isEnd then .error .outOfRange else v.read buf it.indices

/-- `for (it = begin(); it != end(); ++it) out.push_back(*it)`: the sequence produced by iterating the
view.  `it != end()` is `!it.is_end_` (BroadcastView.hpp:121-123 with `other.is_end_`). -/
def BView.toList {T : Type} (v : BView) (buf : List T) : Res (List T) := do
  let r ← whileFuel (fun (st : ViewIter × List T) => !st.1.isEnd)
    (fun st => do
      let x ← v.deref buf st.1
      return (st.1.next v.shape, st.2 ++ [x]))
    v.shape.size (ViewIter.begin v.shape, [])
  return r.2

/-! ## SliceView -/

/-- Members of `SliceView` (SliceView.hpp:16-19). -/
structure SView where
  orig : Shape
  shape : Shape
  start : List Int
  steps : List Int
  deriving Repr

/-- Normalisation of one `start` (SliceView.hpp:52, 55, 59).  The code also computes `end` and then
never uses it (SliceView.hpp:53, 56-57, 60). -/
def sliceStart (dim start : Int) : Int :=
  let s := if start < 0 then start + dim else start
  max 0 (min s (dim - 1))

/-- One dimension of `calculateSlicedShape` (SliceView.hpp:24); dividing by a zero step is UB. -/
def slicedDim (dim start step : Int) : Res Int :=
  if step = 0 then .error .ub else .ok (Int.tdiv (dim - start + step - 1) step)

/-- The constructor (SliceView.hpp:40-66) with `calculateSlicedShape` (SliceView.hpp:21-28). -/
def SView.make (orig : Shape) (slices : List (Int × Int)) (steps : List Int) : Res SView := do
  if slices.length ≠ orig.rank ∨ steps.length ≠ orig.rank then throw .runtimeError
  let start := List.zipWith (fun d (p : Int × Int) => sliceStart d p.1) orig.dims slices
  let newDims ← ((orig.dims.zip start).zip steps).mapM (fun q => slicedDim q.1.1 q.1.2 q.2)
  let sh ← Shape.make newDims
  return { orig := orig, shape := sh, start := start, steps := steps }

/-- `mapIndex` (SliceView.hpp:30-37), `int` accumulator. -/
def sliceMapIndex : List Int → List Int → List Int → List Nat → Int → Int
  | i :: is, st :: sts, sp :: sps, s :: ss, acc =>
    sliceMapIndex is sts sps ss (toInt32 (acc + (st + i * sp) * (s : Int)))
  | _, _, _, _, acc => acc

def SView.mapIndex (v : SView) (indices : List Int) : Int :=
  sliceMapIndex indices v.start v.steps v.orig.stride 0

/-- `operator[]` (SliceView.hpp:70-76).  Simplification: an index vector of the wrong length is `ub`
(the code ignores missing trailing indices and reads past the member vectors for excess ones). -/
def SView.read {T : Type} (v : SView) (buf : List T) (indices : List Int) : Res T :=
  if indices.length = v.shape.rank then rd buf (v.mapIndex indices) else .error .ub

/-- `set` (SliceView.hpp:78-84): writes through a `const_cast` into the original buffer. -/
def SView.set {T : Type} (v : SView) (buf : List T) (indices : List Int) (x : T) : Res (List T) :=
  if indices.length = v.shape.rank then wr buf (v.mapIndex indices) x else .error .ub

/-- `operator*` (SliceView.hpp:110-115). -/
def SView.deref {T : Type} (v : SView) (buf : List T) (it : ViewIter) : Res T :=
  if it.isEnd then .error .outOfRange else v.read buf it.indices

/-- Iterating the view from `begin()` to `end()` (SliceView.hpp:86-139). -/
def SView.toList {T : Type} (v : SView) (buf : List T) : Res (List T) := do
  let r ← whileFuel (fun (st : ViewIter × List T) => !st.1.isEnd)
    (fun st => do
      let x ← v.deref buf st.1
      return (st.1.next v.shape, st.2 ++ [x]))
    v.shape.size (ViewIter.begin v.shape, [])
  return r.2

end SmartDNN
