import Verif.Model.Optimizers
import Verif.Model.Random

/-!
# Parallel loops

The loops marked `#pragma omp parallel for` (Tensor/AdvancedTensorOperations.hpp:40, 222, 354, 395, 436;
Tensor/TensorOperations.hpp:305; Optimizers/AdamOptimizer.hpp:89; Layers/Conv2DLayer.hpp:209, 252), under any assignment of iterations to
threads and any interleaving of the individual memory accesses.  The memory model is sequentially consistent;
this is what C++ guarantees to race-free programs, and races are detected (`Config.Race`).
`#pragma omp simd reduction` (lines 290, 357) is modelled in Model/Simd.lean; here the inner sums run in increasing order.
-/

namespace SmartDNN

/-- One loop iteration as a sequence of accesses to shared memory; everything between two accesses is
thread-local computation. -/
inductive Prog (L V : Type) where
  | done
  | fail (e : Err)
  | read (l : L) (k : V → Prog L V)
  | write (l : L) (v : V) (k : Prog L V)

/-- Shared memory; `none` is outside every buffer. -/
abbrev Mem (L V : Type) := L → Option V

section
variable {L V : Type} [DecidableEq L]

/-- Memory after a write. -/
def Mem.put (m : Mem L V) (l : L) (v : V) : Mem L V := fun l' => if l' = l then some v else m l'

/-- Execution without interference; an access outside every buffer is undefined. -/
def Prog.run : Prog L V → Mem L V → Res (Mem L V)
  | .done, m => .ok m
  | .fail e, _ => .error e
  | .read l k, m => match m l with
    | some v => (k v).run m
    | none => .error .ub
  | .write l v k, m => match m l with
    | some _ => k.run (m.put l v)
    | none => .error .ub

omit [DecidableEq L] in
/-- One iteration after another. -/
def Prog.seq : Prog L V → Prog L V → Prog L V
  | .done, q => q
  | .fail e, _ => .fail e
  | .read l k, q => .read l (fun v => (k v).seq q)
  | .write l v k, q => .write l v (k.seq q)

omit [DecidableEq L] in
/-- The program of a thread that was given the iterations `is`, in this order. -/
def threadProg (body : Nat → Prog L V) (is : List Nat) : Prog L V :=
  is.foldr (fun i q => (body i).seq q) .done

/-- A parallel region: shared memory and what each thread still has to do. -/
structure Config (L V : Type) where
  mem : Mem L V
  threads : List (Prog L V)

/-- One memory access of one thread. -/
inductive Config.Step : Config L V → Config L V → Prop
  | read {m : Mem L V} {pre post : List (Prog L V)} {l : L} {k : V → Prog L V} {v : V} (h : m l = some v) :
      Step ⟨m, pre ++ .read l k :: post⟩ ⟨m, pre ++ k v :: post⟩
  | write {m : Mem L V} {pre post : List (Prog L V)} {l : L} {v old : V} {k : Prog L V} (h : m l = some old) :
      Step ⟨m, pre ++ .write l v k :: post⟩ ⟨m.put l v, pre ++ k :: post⟩

/-- Any number of accesses, by any threads in any order. -/
inductive Config.Steps : Nat → Config L V → Config L V → Prop
  | refl (c : Config L V) : Steps 0 c c
  | tail {n : Nat} {c d e : Config L V} : Steps n c d → Config.Step d e → Steps (n + 1) c e

/-- The region is finished. -/
def Config.Finished (c : Config L V) : Prop := ∀ p ∈ c.threads, p = .done

/-- A thread has failed, or is about to access memory outside every buffer. -/
def Config.Failed (c : Config L V) : Prop :=
  ∃ p ∈ c.threads, (∃ e, p = .fail e) ∨ (∃ l k, p = .read l k ∧ c.mem l = none) ∨
    (∃ l v k, p = .write l v k ∧ c.mem l = none)

omit [DecidableEq L] in
/-- The location a thread is about to write, if any. -/
def Prog.nextWrite : Prog L V → Option L
  | .write l _ _ => some l
  | _ => none

omit [DecidableEq L] in
/-- The location a thread is about to access, if any. -/
def Prog.nextAccess : Prog L V → Option L
  | .write l _ _ => some l
  | .read l _ => some l
  | _ => none

/-- Two threads are about to access the same location, at least one of them to write it. -/
def Config.Race (c : Config L V) : Prop :=
  ∃ s t : Nat, s ≠ t ∧ ∃ p q l, c.threads[s]? = some p ∧ c.threads[t]? = some q ∧ p.nextWrite = some l ∧
    q.nextAccess = some l

/-- Start of `#pragma omp parallel for` over `body`: thread `t` gets the iterations `parts[t]`. -/
def Config.start (mem : Mem L V) (body : Nat → Prog L V) (parts : List (List Nat)) : Config L V :=
  ⟨mem, parts.map (threadProg body)⟩

end

/-! ### The loop bodies -/

/-- The buffers a parallel loop works on. -/
inductive Buf where
  | a | b | result | m | v
  deriving DecidableEq

/-- A place in a buffer. -/
abbrev Loc := Buf × Nat

section
variable {T : Type}

/-- Shared memory holding the given buffers. -/
def memOf (buf : Buf → List T) : Mem Loc T := fun l => (buf l.1)[l.2]?

/-- Body of `applyPair` (AdvancedTensorOperations.hpp:41-43). -/
def applyPairBody (f : T → T → T) (i : Nat) : Prog Loc T :=
  .read (.a, i) fun x => .read (.b, i) fun y => .write (.result, i) (f x y) .done

/-- `sum += aData[..] * bData[..]` for each pair of places in turn. -/
def readDot [Add T] [Mul T] : List (Nat × Nat) → T → (T → Prog Loc T) → Prog Loc T
  | [], acc, k => k acc
  | (i, j) :: ps, acc, k => .read (.a, i) fun x => .read (.b, j) fun y => readDot ps (acc + x * y) k

/-- Body of `matrixVectorMul` (AdvancedTensorOperations.hpp:355-362) for a matrix with `n` columns. -/
def matVecBody [Zero T] [Add T] [Mul T] (n : Nat) (i : Nat) : Prog Loc T :=
  readDot ((List.range n).map (fun j => (i * n + j, j))) 0 fun s => .write (.result, i) s .done

/-- Body of `matrixMatrixMul` (AdvancedTensorOperations.hpp:396-404); `collapse(2)` makes one iteration out of
each pair `(i, j)`, numbered `i * n + j`. -/
def matMulBody [Zero T] [Add T] [Mul T] (k n : Nat) (q : Nat) : Prog Loc T :=
  readDot ((List.range k).map (fun p => (q / n * k + p, p * n + q % n))) 0 fun s => .write (.result, q) s .done

/-- Body of `matrixMatrixMulSlice` (AdvancedTensorOperations.hpp:437-445) for views `v`, `w` onto the buffers `a`,
`b`, inner dimension `k` and `n` result columns; `operator[]` of a view only reads its own members and then the
element (SliceView.hpp:70-76). -/
def matMulSliceBody [Zero T] [Add T] [Mul T] (v w : SView) (k n : Nat) (q : Nat) : Prog Loc T :=
  readDot ((List.range k).map (fun (p : Nat) => ((v.mapIndex [((q / n : Nat) : Int), (p : Int)]).toNat,
    (w.mapIndex [(p : Int), ((q % n : Nat) : Int)]).toNat))) 0 fun s => .write (.result, q) s .done

/-- One assignment of `im2col` (Conv2DLayer.hpp:212-226): image batch of shape `sh` in buffer `a`, matrix of shape
`colSh` in buffer `result`. -/
def im2colStep [Zero T] (sh colSh : Shape) (height width kernelHeight kernelWidth outputHeight outputWidth : Nat)
    (stride padding dilation : Int) (n c kh kw oh ow : Nat) : Prog Loc T :=
  let ih : Int := oh * stride + kh * dilation - padding
  let iw : Int := ow * stride + kw * dilation - padding
  let row : Int := c * kernelHeight * kernelWidth + kh * kernelWidth + kw
  let wcol : Int := (n * outputHeight + oh) * outputWidth + ow
  match computeFlatIndex colSh [row, wcol] with
  | .error e => .fail e
  | .ok k =>
    if ih ≥ 0 ∧ ih < height ∧ iw ≥ 0 ∧ iw < width then
      .read (.a, (n * sh.stride.getD 0 0 + c * sh.stride.getD 1 0 + ih * sh.stride.getD 2 0 +
        iw * sh.stride.getD 3 0 : Int).toNat) fun x => .write (.result, k) x .done
    else .write (.result, k) 0 .done

/-- One accumulation of `col2im` (Conv2DLayer.hpp:255-267): matrix of shape `colSh` in buffer `a`, image batch of
shape `sh` in buffer `result`. -/
def col2imStep [Add T] (sh colSh : Shape) (height width kernelHeight kernelWidth outputHeight outputWidth : Nat)
    (stride padding dilation : Int) (n c kh kw oh ow : Nat) : Prog Loc T :=
  let ih : Int := oh * stride + kh * dilation - padding
  let iw : Int := ow * stride + kw * dilation - padding
  let row : Int := c * kernelHeight * kernelWidth + kh * kernelWidth + kw
  let wcol : Int := (n * outputHeight + oh) * outputWidth + ow
  if ih ≥ 0 ∧ ih < height ∧ iw ≥ 0 ∧ iw < width then
    match computeFlatIndex colSh [row, wcol] with
    | .error e => .fail e
    | .ok k =>
      let j := (n * sh.stride.getD 0 0 + c * sh.stride.getD 1 0 + ih * sh.stride.getD 2 0 +
        iw * sh.stride.getD 3 0 : Int).toNat
      .read (.a, k) fun x => .read (.result, j) fun y => .write (.result, j) (y + x) .done
  else .done

/-- The four inner loops of `im2col` and `col2im` (Conv2DLayer.hpp:212-231, 255-272), which one thread runs for one
pair `(n, c)`; `collapse(2)` numbers the pairs `n * channels + c`. -/
def windowLoops (channels kernelHeight kernelWidth outputHeight outputWidth : Nat)
    (step : Nat → Nat → Nat → Nat → Nat → Nat → Prog Loc T) (q : Nat) : Prog Loc T :=
  threadProg (fun kh => threadProg (fun kw => threadProg (fun oh => threadProg (fun ow =>
    step (q / channels) (q % channels) kh kw oh ow)
    (List.range outputWidth)) (List.range outputHeight)) (List.range kernelWidth)) (List.range kernelHeight)

/-- Body of the Adam update (AdamOptimizer.hpp:90-92, 102-127): weights in `result`, gradient in `a`, moments
in `m` and `v`.  The moments just written are used without being read back. -/
def adamBody [Zero T] [One T] [Add T] [Sub T] [Mul T] [Div T] [Neg T] [NatCast T]
    [IntCast T] [LT T] [DecidableLT T] [MathFn T] (o : AdamOptions T) (learningRate : T) (iterations : Nat) (j : Nat) : Prog Loc T :=
  .read (.a, j) fun g => .read (.m, j) fun m => .read (.v, j) fun v => .read (.result, j) fun w =>
    let r := Adam.updateParameter o learningRate iterations w g m v (Adam.alphaT o learningRate iterations)
    .write (.m, j) r.2.1 (.write (.v, j) r.2.2 (.write (.result, j) r.1 .done))

/-! ### `transpose` -/

/-- What the parallel loop of `transpose` shares: the two tensors and the two index vectors, which are declared
outside the loop (AdvancedTensorOperations.hpp:217-218). -/
inductive TLoc where
  | src (k : Nat) | dst (k : Nat) | old (d : Nat) | new (d : Nat)
  deriving DecidableEq

/-- Contents of a shared place: a tensor element or an index. -/
inductive Cell (T : Type) where
  | val (x : T)
  | idx (i : Int)

/-- Consecutive writes. -/
def writeAll {L V : Type} : List (L × V) → Prog L V → Prog L V
  | [], q => q
  | (l, v) :: ws, q => .write l v (writeAll ws q)

/-- Consecutive copies `dst = src`. -/
def copyAll {L V : Type} : List (L × L) → Prog L V → Prog L V
  | [], q => q
  | (d, s) :: cs, q => .read s fun v => .write d v (copyAll cs q)

/-- Consecutive reads. -/
def readAll {L V : Type} : List L → List V → (List V → Prog L V) → Prog L V
  | [], acc, k => k acc
  | l :: ls, acc, k => .read l fun v => readAll ls (acc ++ [v]) k

/-- The index held by a place. -/
def Cell.toIdx : Cell T → Int
  | .idx i => i
  | .val _ => 0

/-- Body of `transpose` (AdvancedTensorOperations.hpp:223-241) for a tensor of shape `sh`, transposed shape
`newSh`: computes `oldIndices` from the last dimension to the first, copies them permuted into `newIndices`,
then reads both vectors inside the two `at` calls.  The zero-dimension test is omitted: no constructed shape
has one. -/
def transposeBody (sh newSh : Shape) (dim0 dim1 : Nat) (i : Nat) : Prog TLoc (Cell T) :=
  match Tensor.unflatten sh.dims i with
  | .error e => .fail e
  | .ok (old, _) =>
    let rank := sh.rank
    let oldToNew := Tensor.swapAt (List.range rank) dim0 dim1
    writeAll ((List.range rank).reverse.map (fun d => (TLoc.old d, Cell.idx (old.getD d 0)))) <|
    copyAll ((List.range rank).map (fun d => (TLoc.new d, TLoc.old (oldToNew.getD d 0)))) <|
    readAll ((List.range rank).map TLoc.old) [] fun olds =>
    match computeFlatIndex sh (olds.map Cell.toIdx) with
    | .error e => .fail e
    | .ok k =>
      readAll ((List.range rank).map TLoc.new) [] fun news =>
      match computeFlatIndex newSh (news.map Cell.toIdx) with
      | .error e => .fail e
      | .ok k' => .read (.src k) fun x => .write (.dst k') x .done

/-- Shared memory of `transpose`: source elements, result elements, and the index vectors. -/
def transposeMem (src dst : List T) (old new : List Int) : Mem TLoc (Cell T)
  | .src k => src[k]?.map Cell.val
  | .dst k => dst[k]?.map Cell.val
  | .old d => old[d]?.map Cell.idx
  | .new d => new[d]?.map Cell.idx

/-! ### `createRandom` -/

/-- What the parallel loop of `createRandom` shares: the result and the process-wide engine
(RandomEngine.hpp:8-11). -/
inductive RLoc where
  | engine | dst (k : Nat)
  deriving DecidableEq

/-- Contents of a shared place: an element or the state of the engine. -/
inductive RCell (ρ T : Type) where
  | val (x : T)
  | state (r : ρ)

/-- Body of `createRandom` (TensorOperations.hpp:306-308, RandomEngine.hpp:37-42) for `n` elements.  Drawing a
number reads and then overwrites the engine state; the many accesses of the real engine are merged into one read
and one write, so the model has fewer interleavings than the code. -/
def randomBody {ρ : Type} [LT T] [DecidableLT T] (E : Engine ρ T) (n : Nat) (lo hi : T) (i : Nat) :
    Prog RLoc (RCell ρ T) :=
  .read .engine fun c => match c with
    | .val _ => .fail .ub
    | .state r =>
      .write .engine (.state (getHeRandRange E n lo hi r).2) <|
      .write (.dst i) (.val (getHeRandRange E n lo hi r).1) .done

/-- Shared memory of `createRandom`. -/
def randomMem {ρ : Type} (r : ρ) (dst : List T) : Mem RLoc (RCell ρ T)
  | .engine => some (.state r)
  | .dst k => dst[k]?.map RCell.val

end
end SmartDNN
